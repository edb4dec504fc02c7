import Mathlib.Tactic.Common

/-!
# Copying the projection to the extensions: types
-/

namespace Verif.WcsCopy

/-- The value of a keyword; `ν` are the floating point numbers. -/
inductive Val (ν : Type) where
  | num (x : ν)
  | str (s : String)

/-- A header: the keywords that are present, with their values. -/
abbrev Header (ν : Type) := String → Option (Val ν)

/-- A part of a FITS file: its identifier as listed in the summary of the file, whether it is an
image, its header and the rest. -/
structure Hdu (ν δ : Type) where
  id : String
  image : Bool
  header : Header ν
  data : δ

/-- A FITS file; the first part is the primary one. -/
abbrev File (ν δ : Type) := List (Hdu ν δ)

end Verif.WcsCopy
