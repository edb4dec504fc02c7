import Mathlib.Data.Real.Basic
/-
What the model and the specification of the kinds of map files share.
-/
namespace Verif.FileKind

/-- An extension of a file: an image with a number of axes, or a table with its keyword `PIXTYPE`. -/
inductive Hdu where
  | image (naxis : Nat)
  | table (pixtype : Option String)

/-- A file: the number of axes of its primary image, if that can be read, and its extensions. -/
structure File where
  primary : Option Nat
  ext : String → Option Hdu

/-- How the pixels of a map lie on the sky. -/
inductive Method where
  | wcs
  | hpx
  | unknown
deriving DecidableEq

/-- One axis of an exposure map in degrees: value, pixel and step of reference, number of pixels. -/
structure Axis where
  crval : ℝ
  crpix : ℝ
  cdelt : ℝ
  n : Nat

end Verif.FileKind
