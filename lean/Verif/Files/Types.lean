import Mathlib.Data.Real.Basic
/-
The tables and images of a file, as far as the functions of `src/FileUtils.cxx` look at them.
-/
namespace Verif.Files

/-- The columns of a table that hold a map: `PIX`, `CHANNEL`, `VALUE` and `CHANNEL<n>`. -/
inductive Col where
  | pix
  | channel
  | value
  | chan (n : Nat)
  deriving DecidableEq

/-- The header keyword `INDXSCHM`. -/
inductive Scheme where
  | unset
  | implicit
  | explicit
  | sparse
  deriving DecidableEq

/-- A table: two header keywords, the number of rows and the columns with their cells, in the order
in which they were added.  Cells beyond the last row are not in the file. -/
structure Table where
  scheme : Scheme
  nEnergy : Nat
  nrow : Nat
  cols : List (Col × (Nat → ℝ))

/-- What is used of the binning of the data: pixels of a plane, position of a pixel in the whole sky,
is it a map of the whole sky, number of planes of a map. -/
structure Geo where
  npix : Nat
  glo : Nat → Nat
  allSky : Bool
  nData : Nat

/-- An image: pixels of a plane, planes (`NAXIS3`), values. -/
structure Image where
  npix : Nat
  planes : Nat
  data : List ℝ

/-- A call that writes a map: values, first and last plane. -/
structure Write (α : Type) where
  data : List α
  kmin : Nat
  kmax : ℤ

end Verif.Files
