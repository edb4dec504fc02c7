import Mathlib.Data.Real.Basic
/-
Files of the tools that make the weights.
-/
namespace Verif.WtTool

/-- Kinds of maps. -/
inductive Kind where
  | wcs
  | hpx
  deriving DecidableEq

/-- A map of counts, as a file holds it: the edges of the energy bins and the values, layer after layer. -/
structure Map where
  kind : Kind
  npix : Nat
  edges : List ℝ
  data : List ℝ

/-- The value of a keyword. -/
inductive Val where
  | num (x : ℝ)
  | str (s : String)

/-- A map of weights in a file: the values, the energies and the keywords. -/
structure WtFile where
  npix : Nat
  data : List ℝ
  energies : List ℝ
  keys : List (String × Val)

/-- The maps on the disk, by name. -/
abbrev Disk := String → Option Map

end Verif.WtTool
