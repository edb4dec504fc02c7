import Mathlib.Data.Real.Basic
/-
Data and models of the scan by energy bin: what is to be selected by a range of energy bins.
-/
namespace Verif.FitScan.Spec

/-- The pixels of the energy bins `[first, last)`, in order. -/
def bins (layers : List (List ℝ)) (first last : Nat) : List ℝ := ((layers.take last).drop first).flatten

/-- The elements `[a, b)` of a vector. -/
def part (v : List ℝ) (a b : Nat) : List ℝ := (v.take b).drop a

end Verif.FitScan.Spec
