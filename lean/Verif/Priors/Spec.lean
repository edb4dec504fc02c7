import Verif.Spectra.Spec
import Mathlib.Analysis.SpecialFunctions.Log.Basic
import Mathlib.Analysis.SpecialFunctions.Trigonometric.Basic
/-
Gaussian priors.
-/
namespace Verif.Priors

/-- The density of the normal distribution. -/
noncomputable def gaussian (mean sigma x : ℝ) : ℝ :=
  1 / (Real.sqrt (2 * Real.pi) * sigma) * Real.exp (-(x - mean) ^ 2 / (2 * sigma ^ 2))

end Verif.Priors
