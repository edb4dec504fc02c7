import Mathlib.Data.Real.Basic

/-!
# Scans of a sum of likelihoods: the components
-/

namespace Verif.SumScan

/-- A component of a sum: bounds of its energy bins, number of pixels, counts, and what it predicts
for a scan: the names of its free sources, their predictions for unit normalisation, their reference
values, the predictions of all other sources and of the test source, and the weights of the counts. -/
structure Part (N : Type) where
  edges : List ℝ
  npix : Nat
  data : List ℝ
  names : List N
  templates : List (List ℝ)
  refs : List ℝ
  fixed : List ℝ
  test : List ℝ
  weights : List ℝ

/-- The same for the sum. -/
structure Scan (N : Type) where
  names : List N
  templates : List (List ℝ)
  refs : List ℝ
  fixed : List ℝ
  test : List ℝ
  weights : Option (List ℝ)

end Verif.SumScan
