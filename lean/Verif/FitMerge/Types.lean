import Mathlib.Data.Real.Basic
/-
Types of the model of scans of several components.
-/
namespace Verif.FitMerge

/-- A component: bounds of its energy bins, number of pixels, counts (or any other numbers) of the pixels of
the first bin, of the second bin, and so on. -/
structure Comp where
  edges : List ℝ
  npix : Nat
  data : List ℝ

/-- The components put together: energies, for each of them and each component the number of the bin (or
-1), number of pixels of each layer, number of bins, and the counts. -/
structure Merged where
  energies : List ℝ
  rows : List (List Int)
  npixLayer : List Nat
  nebins : Nat
  data : List ℝ

end Verif.FitMerge
