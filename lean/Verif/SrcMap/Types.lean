import Mathlib.Data.Real.Basic
/-
Images, and the calls a user of a source map can make.
-/
namespace Verif.SrcMap

/-- Pixels of all planes, plane by plane. -/
abbrev Image := List ℝ

/-- What a user of the map can do. -/
inductive Op where
  | model (force : Bool)
  | npreds (force : Bool)
  | clear (force : Bool)
  | reload
  | setSave (b : Bool)
  | setImage (img : Image)
  | setWeights (w : Option Image)
  | setSource (s : Nat)
  | saveMap (f : Nat) (replace good : Bool)

end Verif.SrcMap
