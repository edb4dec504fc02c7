import Verif.Basic
import Mathlib.Analysis.SpecialFunctions.Log.Basic
/-
Types of the fit in the logarithms of normalizations, shared by the model and the specification.
-/
namespace Verif.LogFit

/-- What a fit is given: log-likelihood, gradient and Hessian of its negative at given normalizations, and a routine that
inverts matrices (fail code and inverse). -/
structure Objective where
  ll : List ℝ → Res ℝ
  gh : List ℝ → Res (List ℝ × List (List ℝ))
  invert : List (List ℝ) → Int × List (List ℝ)

/-- What a fit hands back. -/
structure Fit where
  status : Int
  norms : List ℝ
  covar : Nat → Nat → ℝ
  edm : ℝ
  logLike : ℝ

/-- How a fit ends. -/
inductive Out where
  /-- A code other than "converged" and "too many steps"; the other results are not described. -/
  | failed (code : Int)
  /-- Normalizations that are not numbers. -/
  | nan
  /-- Results. -/
  | fit (f : Fit)

/-- A logarithm as the machine has it. -/
inductive Ln where
  | num (x : ℝ)
  | negInf
  | nan

end Verif.LogFit
