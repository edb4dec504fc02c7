import Verif.Basic
import Verif.Vec
import Mathlib.Data.Real.Basic
/-
Types of scans with an optimizer, shared by the model and the specification.
-/
namespace Verif.StScan

/-- A parameter with its bounds. -/
structure Par where
  value : ℝ
  lo : ℝ
  hi : ℝ
  free : Bool

/-- The parameters of all sources and the ranges of energy bins of all components. -/
structure St where
  pars : List Par
  klims : List (Nat × Nat)

/-- One likelihood, or a sum of `n` likelihoods with the numbers `bins[k][i]` of the merged energy bin `k` in component `i`. -/
inductive Like
  | single
  | summed (bins : List (List Int)) (n : Nat)

/-- The log likelihood for ranges of energy bins and values of all parameters, and the optimizer: the parameters after a
fit, the uncertainties of the free ones, and the parameters after a fit for the minimum only. -/
structure Fitter where
  value : List (Nat × Nat) → List ℝ → ℝ
  minimize : List (Nat × Nat) → List Par → List Par × List ℝ
  reminimize : List (Nat × Nat) → List Par → List Par

/-- The results of a scan. -/
structure Scan where
  norms : List ℝ
  mle : ℝ
  logLike : ℝ
  logLikes : List ℝ

/-- The end of a call: results, or an exception with the state it leaves. -/
inductive Out (α : Type)
  | done (st : St) (result : α)
  | thrown (st : St)

/-- Parameters of the sources of a model: which of them are free, and which is the normalization. -/
structure Flags where
  free : List Bool
  norm : Nat

end Verif.StScan
