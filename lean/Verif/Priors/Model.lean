import Verif.Basic
import Verif.Spectra.Spec
import Mathlib.Analysis.SpecialFunctions.Log.Basic
import Mathlib.Analysis.SpecialFunctions.Trigonometric.Basic
/-
Models of the functions used as priors of parameters, `LogGaussian` and `GaussianError`.
Parameters are numbered in the order of their `enum`; names are replaced by numbers.
-/
namespace Verif.Priors
open Verif.Spectra

/-- `m_log_term` of a new `LogGaussian`, LogGaussian.cxx:23-29; the member is never changed
afterwards. -/
noncomputable def LogGaussian.logTerm (sigma : ℝ) : ℝ := Real.log (Real.sqrt (2 * Real.pi) * sigma)

/-- `LogGaussian::value`, LogGaussian.cxx:31-38; parameters Norm, Mean, Sigma. -/
noncomputable def LogGaussian.value (logTerm : ℝ) (p : Pars) (x : ℝ) : ℝ :=
  let norm := (p 0).tv
  let mean := (p 1).tv
  let sigma := (p 2).tv
  norm * (-(x - mean) * (x - mean) / 2 / sigma / sigma - logTerm)

/-- `LogGaussian::derivByParamImp`, LogGaussian.cxx:40-79. -/
noncomputable def LogGaussian.deriv (logTerm : ℝ) (p : Pars) (i : Nat) (x : ℝ) : Res ℝ :=
  let norm := (p 0).tv
  let mean := (p 1).tv
  let sigma := (p 2).tv
  let s3 := sigma * sigma * sigma
  match i with
  | 0 => .ok (LogGaussian.value logTerm p x / norm)
  | 1 => .ok (-norm * mean / sigma / sigma)
  | 2 => .ok (norm * ((x - mean) * (x - mean) / 6 / s3 - 1 / sigma))
  | _ => .throws

/-- `LogGaussian::derivative`, LogGaussian.cxx:81-88. -/
noncomputable def LogGaussian.derivative (p : Pars) (x : ℝ) : ℝ :=
  let norm := (p 0).tv
  let mean := (p 1).tv
  let sigma := (p 2).tv
  norm * (-(x - mean) / sigma / sigma)

/-- `GaussianError::value`, GaussianError.cxx:34-45; parameters Norm, Mean, Sigma, Offset. -/
noncomputable def GaussianError.value (p : Pars) (x : ℝ) : ℝ :=
  let norm := (p 0).tv
  let mean := (p 1).tv
  let sigma := (p 2).tv
  let offset := (p 3).tv
  (-(x - mean) * (x - mean) / (2 * sigma * sigma) + offset) * norm

/-- `GaussianError::derivByParamImp`, GaussianError.cxx:47-87. -/
noncomputable def GaussianError.deriv (p : Pars) (i : Nat) (x : ℝ) : Res ℝ :=
  let norm := (p 0).tv
  let mean := (p 1).tv
  let sigma := (p 2).tv
  let s3 := sigma * sigma * sigma
  match i with
  | 0 => .ok (GaussianError.value p x / norm)
  | 1 => .ok (norm * (x - mean) / (sigma * sigma))
  | 2 => .ok (norm * (x - mean) * (x - mean) / (6 * s3))
  | 3 => .ok norm
  | _ => .throws

/-- `GaussianError::derivative`, GaussianError.cxx:89-95. -/
noncomputable def GaussianError.derivative (p : Pars) (x : ℝ) : ℝ :=
  let norm := (p 0).tv
  let mean := (p 1).tv
  let sigma := (p 2).tv
  norm * (-(x - mean) / (sigma * sigma))

end Verif.Priors
