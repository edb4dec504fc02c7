import Verif.Basic
import Verif.Spectra.Spec
import Mathlib.Analysis.SpecialFunctions.Pow.Real
import Mathlib.Analysis.SpecialFunctions.Trigonometric.Basic
import Mathlib.Analysis.SpecialFunctions.Log.Base
/-
Models of the spectral functions with closed forms: value and derivative by parameter.

Parameters are numbered in the order of the `enum` of each function.  The search for the
name of the parameter, the same in all functions, is replaced by the number; `.throws` is
`ParameterNotFound` or the exception for parameters without derivative.  Numbers are real:
`std::pow` of a positive base is `Real.rpow`, and theorems assume the arguments positive
and the divisors nonzero where C++ would give `nan` or an infinity.
-/
namespace Verif.Spectra

/-- `LogParabola`, parameters norm, alpha, beta, Eb.  `value`, LogParabola.cxx:53-60. -/
noncomputable def LogParabola.value (p : Pars) (energy : ℝ) : ℝ :=
  let x := energy / (p 3).tv
  (p 0).tv * x ^ (-((p 1).tv + (p 2).tv * Real.log x))

/-- LogParabola.cxx:62-98. -/
noncomputable def LogParabola.deriv (p : Pars) (i : Nat) (energy : ℝ) : Res ℝ :=
  let x := energy / (p 3).tv
  let logx := Real.log x
  let dfdnorm := x ^ (-((p 1).tv + (p 2).tv * logx))
  match i with
  | 0 => .ok (dfdnorm * (p 0).scale)
  | 1 => .ok (-(p 0).tv * logx * dfdnorm * (p 1).scale)
  | 2 => .ok (-(p 0).tv * logx * logx * dfdnorm * (p 2).scale)
  | 3 => .ok (LogParabola.value p energy / (p 3).tv * ((p 1).tv + 2 * (p 2).tv * logx) * (p 3).scale)
  | _ => .throws

/-- `BandFunction`, parameters norm, alpha, beta, Ep, Scale.  `value`, BandFunction.cxx:56-79. -/
noncomputable def Band.value (p : Pars) (x : ℝ) : ℝ :=
  let N0 := (p 0).tv
  let alpha := (p 1).tv
  let beta := (p 2).tv
  let scale := (p 4).tv
  let energy := x / scale
  let epeak := (p 3).tv / scale
  let ebreak := epeak * (alpha - beta)
  if alpha ≤ beta then N0 * energy ^ beta
  else if energy < ebreak then N0 * energy ^ alpha * Real.exp (-energy / epeak)
  else N0 * energy ^ beta * ebreak ^ (alpha - beta) * Real.exp (beta - alpha)

/-- BandFunction.cxx:81-149. -/
noncomputable def Band.deriv (p : Pars) (i : Nat) (x : ℝ) : Res ℝ :=
  let N0 := (p 0).tv
  let alpha := (p 1).tv
  let beta := (p 2).tv
  let scale := (p 4).tv
  let energy := x / scale
  let epeak := (p 3).tv / scale
  let ebreak := epeak * (alpha - beta)
  match i with
  | 0 => .ok (Band.value p x / N0 * (p 0).scale)
  | 1 =>
    if alpha ≤ beta then .ok (N0 * energy ^ alpha * Real.log energy * (p 1).scale)
    else if energy < ebreak then .ok (Band.value p x * Real.log energy * (p 1).scale)
    else .ok (Band.value p x * Real.log (epeak * (alpha - beta)) * (p 1).scale)
  | 2 =>
    if alpha ≤ beta then .ok (N0 * energy ^ beta * Real.log energy * (p 2).scale)
    else if energy < ebreak then .ok 0
    else .ok (Band.value p x * Real.log (energy / epeak / (alpha - beta)) * (p 2).scale)
  | 3 =>
    if alpha ≤ beta then .ok 0
    else if energy < ebreak then .ok (Band.value p x * energy / epeak / (epeak * scale) * (p 3).scale)
    else .ok (Band.value p x * (alpha - beta) / (epeak * scale) * (p 3).scale)
  | _ => .throws

/-- `ExpCutoff`, parameters Prefactor, Index, Scale, Ebreak, P1, P2, P3.  `value`,
ExpCutoff.cxx:34-58. -/
noncomputable def ExpCutoff.value (p : Pars) (x : ℝ) : ℝ :=
  let ebreak := (p 3).tv
  if x < ebreak then (p 0).tv * (x / (p 2).tv) ^ (p 1).tv
  else
    let ln := Real.log (x / ebreak)
    (p 0).tv * (x / (p 2).tv) ^ (p 1).tv *
      Real.exp (-((x - ebreak) / (p 4).tv + (p 5).tv * ln + (p 6).tv * ln * ln))

/-- ExpCutoff.cxx:60-130. -/
noncomputable def ExpCutoff.deriv (p : Pars) (i : Nat) (x : ℝ) : Res ℝ :=
  let scale := (p 2).tv
  let ebreak := (p 3).tv
  let p1 := (p 4).tv
  let p2 := (p 5).tv
  let p3 := (p 6).tv
  let ln := Real.log (x / ebreak)
  match i with
  | 0 => .ok (ExpCutoff.value p x / (p 0).tv * (p 0).scale)
  | 1 => .ok (ExpCutoff.value p x * Real.log (x / scale) * (p 1).scale)
  | 2 => .ok (-ExpCutoff.value p x * ((p 1).tv / scale) * (p 2).scale)
  | 3 => if x < ebreak then .ok 0
    else .ok (ExpCutoff.value p x * (1 / p1 + p2 / ebreak + (2 * p3 * ln) / ebreak) * (p 3).scale)
  | 4 => if x < ebreak then .ok 0 else .ok (ExpCutoff.value p x * (x - ebreak) / p1 / p1 * (p 4).scale)
  | 5 => if x < ebreak then .ok 0 else .ok (-ExpCutoff.value p x * ln * (p 5).scale)
  | 6 => if x < ebreak then .ok 0 else .ok (-ExpCutoff.value p x * ln * ln * (p 6).scale)
  | _ => .throws

/-- `BrokenPowerLawExpCutoff`, parameters Prefactor, Index1, Index2, BreakValue, Eabs, P1.
`value`, BrokenPowerLawExpCutoff.cxx:34-60. -/
noncomputable def BplExp.value (p : Pars) (x : ℝ) : ℝ :=
  let prefactor := (p 0).tv
  let index1 := (p 1).tv
  let index2 := (p 2).tv
  let breakvalue := (p 3).tv
  let eabs := (p 4).tv
  let p1 := (p 5).tv
  if x < breakvalue ∧ x < eabs then prefactor * (x / breakvalue) ^ index1
  else if breakvalue < x ∧ x < eabs then prefactor * (x / breakvalue) ^ index2
  else if x < breakvalue ∧ eabs < x then
    prefactor * (x / breakvalue) ^ index1 * Real.exp (-((x - eabs) / p1))
  else if breakvalue < x ∧ eabs < x then
    prefactor * (x / breakvalue) ^ index2 * Real.exp (-((x - eabs) / p1))
  else 0

/-- BrokenPowerLawExpCutoff.cxx:62-151. -/
noncomputable def BplExp.deriv (p : Pars) (i : Nat) (x : ℝ) : Res ℝ :=
  let pref := (p 0).tv
  let prefscale := (p 0).scale
  let ind1 := (p 1).tv
  let ind2 := (p 2).tv
  let breakvalue := (p 3).tv
  let eabs := (p 4).tv
  let eabsscale := (p 4).scale
  let p1 := (p 5).tv
  let p1scale := (p 5).scale
  match i with
  | 0 =>
    if pref ≠ 0 then .ok (BplExp.value p x / pref * prefscale)
    else if x < breakvalue ∧ x < eabs then .ok ((x / breakvalue) ^ ind1 * prefscale)
    else if breakvalue < x ∧ x < eabs then .ok ((x / breakvalue) ^ ind2 * prefscale)
    else if x < breakvalue ∧ eabs < x then
      .ok ((x / breakvalue) ^ ind1 * prefscale * Real.exp (-(x - eabs * eabsscale) / p1 * p1scale))
    else if breakvalue < x ∧ eabs < x then
      .ok ((x / breakvalue) ^ ind2 * prefscale * Real.exp (-(x - eabs * eabsscale) / p1 * p1scale))
    else .ok 0
  | 1 => if x < breakvalue then .ok (BplExp.value p x * Real.log (x / breakvalue) * (p 1).scale) else .ok 0
  | 2 => if breakvalue < x then .ok (BplExp.value p x * Real.log (x / breakvalue) * (p 2).scale) else .ok 0
  | 3 => if x < breakvalue then .ok (-BplExp.value p x * ind1 / breakvalue * (p 3).scale)
    else .ok (-BplExp.value p x * ind2 / breakvalue * (p 3).scale)
  | 4 => if x < eabs then .ok 0 else .ok (BplExp.value p x * (1 / p1) * eabsscale)
  | 5 => if x < eabs then .ok 0 else .ok (BplExp.value p x * (x - eabs) / p1 / p1 * p1scale)
  | _ => .throws

/-- `ExpCutoffSEDPeak`, parameters Fpeak, Index, Epeak.  `value`, ExpCutoffSEDPeak.cxx:31-50. -/
noncomputable def SedPeak.value (p : Pars) (x : ℝ) : ℝ :=
  let fpeak := (p 0).tv
  let index := (p 1).tv
  let epeak := (p 2).tv
  fpeak / epeak ^ (2 : ℝ) * (x / epeak) ^ index * (Real.exp (1 - x / epeak)) ^ (index + 2)

/-- ExpCutoffSEDPeak.cxx:52-97. -/
noncomputable def SedPeak.deriv (p : Pars) (i : Nat) (x : ℝ) : Res ℝ :=
  let fpeak := (p 0).tv
  let index := (p 1).tv
  let epeak := (p 2).tv
  match i with
  | 0 => .ok (SedPeak.value p x / fpeak * (p 0).scale)
  | 1 => .ok (SedPeak.value p x * (Real.log (x / epeak) + (1 - x / epeak)) * (p 1).scale)
  | 2 => .ok (-SedPeak.value p x * (index + 2) * (1 - x / epeak) / epeak * (p 2).scale)
  | _ => .throws

/-- `LogNormal`, parameters Prefactor, Log10_Mean, Log10_Sigma.  `value`, LogNormal.cxx:26-40;
`std::log10` is `Real.logb 10`. -/
noncomputable def LogNormal.value (p : Pars) (x : ℝ) : ℝ :=
  let foo := (Real.logb 10 x - (p 1).tv) / (p 2).tv
  (p 0).tv * Real.log 10 / Real.sqrt (2 * Real.pi) / x / (p 2).tv * Real.exp (-foo * foo / 2)

/-- LogNormal.cxx:42-84. -/
noncomputable def LogNormal.deriv (p : Pars) (i : Nat) (x : ℝ) : Res ℝ :=
  let foo := (Real.logb 10 x - (p 1).tv) / (p 2).tv
  match i with
  | 0 => .ok ((p 0).scale * LogNormal.value p x / (p 0).tv)
  | 1 => .ok ((p 1).scale * LogNormal.value p x * foo / (p 2).tv)
  | 2 => .ok ((p 2).scale * LogNormal.value p x / (p 2).tv * (foo * foo - 1))
  | _ => .throws

/-- `SmoothBrokenPowerLaw`, parameters Prefactor, Index1, Scale, Index2, BreakValue, Beta.
`value`, SmoothBrokenPowerLaw.cxx:38-56. -/
noncomputable def Smooth.value (p : Pars) (x : ℝ) : ℝ :=
  let index1 := (p 1).tv
  let index2 := (p 3).tv
  let breakvalue := (p 4).tv
  let beta := (p 5).tv
  (p 0).tv * (x / (p 2).tv) ^ index1 * (1 + (x / breakvalue) ^ ((index1 - index2) / beta)) ^ (-beta)

/-- SmoothBrokenPowerLaw.cxx:59-110. -/
noncomputable def Smooth.deriv (p : Pars) (i : Nat) (x : ℝ) : Res ℝ :=
  let prefactor := (p 0).tv
  let index1 := (p 1).tv
  let scale := (p 2).tv
  let index2 := (p 3).tv
  let breakvalue := (p 4).tv
  let beta := (p 5).tv
  let v := Smooth.value p x
  match i with
  | 0 => .ok (v / prefactor * (p 0).scale)
  | 1 => .ok (v * (Real.log (x / scale) - Real.log (x / breakvalue) * (x / breakvalue) ^ ((index1 - index2) / beta) /
      (1 + (x / breakvalue) ^ ((index1 - index2) / beta))) * (p 1).scale)
  | 2 => .ok (-v * index1 / scale * (p 2).scale)
  | 3 => .ok (v * Real.log (x / breakvalue) * (x / breakvalue) ^ ((index1 - index2) / beta) /
      (1 + (x / breakvalue) ^ ((index1 - index2) / beta)) * (p 3).scale)
  | 4 => .ok (v * (index1 - index2) * (x / breakvalue) ^ ((index1 - index2) / beta) /
      (1 + (x / breakvalue) ^ ((index1 - index2) / beta)) / breakvalue * (p 4).scale)
  | 5 => .ok (v * (-Real.log (1 + (x / breakvalue) ^ ((index1 - index2) / beta)) +
      (index1 - index2) * Real.log (x / breakvalue) / beta /
        (1 + (x / breakvalue) ^ (-(index1 - index2) / beta))) * (p 5).scale)
  | _ => .throws

/-- `SmoothDoubleBrokenPowerLaw`, parameters Prefactor, Index1, Scale, Index2,
BreakValue12, Beta12, Index3, BreakValue23, Beta23.  `value`,
SmoothDoubleBrokenPowerLaw.cxx:46-69. -/
noncomputable def Double.value (p : Pars) (x : ℝ) : ℝ :=
  let index1 := (p 1).tv
  let index2 := (p 3).tv
  let breakvalue12 := (p 4).tv
  let beta12 := (p 5).tv
  let index3 := (p 6).tv
  let breakvalue23 := (p 7).tv
  let beta23 := (p 8).tv
  (p 0).tv * (x / (p 2).tv) ^ index1
    * (1 + (x / breakvalue12) ^ ((index1 - index2) / beta12)) ^ (-beta12)
    * (1 + (x / breakvalue23) ^ ((index2 - index3) / beta23)) ^ (-beta23)

/-- SmoothDoubleBrokenPowerLaw.cxx:71-141. -/
noncomputable def Double.deriv (p : Pars) (i : Nat) (x : ℝ) : Res ℝ :=
  let prefactor := (p 0).tv
  let index1 := (p 1).tv
  let scale := (p 2).tv
  let index2 := (p 3).tv
  let breakvalue12 := (p 4).tv
  let beta12 := (p 5).tv
  let index3 := (p 6).tv
  let breakvalue23 := (p 7).tv
  let beta23 := (p 8).tv
  let v := Double.value p x
  let f1 := (x / breakvalue12) ^ ((index1 - index2) / beta12)
  let f2 := (x / breakvalue23) ^ ((index2 - index3) / beta23)
  match i with
  | 0 => .ok (v / prefactor * (p 0).scale)
  | 1 => .ok (v * (Real.log (x / scale) - Real.log (x / breakvalue12) * f1 / (1 + f1)) * (p 1).scale)
  | 2 => .ok (-v * index1 / scale * (p 2).scale)
  | 3 => .ok (v * (Real.log (x / breakvalue12) * f1 / (1 + f1) - Real.log (x / breakvalue23) * f2 / (1 + f2)))
  | 4 => .ok (v * (index1 - index2) * (x / breakvalue12) ^ ((index1 - index2) / beta12) /
      (1 + (x / breakvalue12) ^ ((index1 - index2) / beta12)) / breakvalue12 * (p 4).scale)
  | 5 => .ok (v * (-Real.log (1 + (x / breakvalue12) ^ ((index1 - index2) / beta12)) +
      (index1 - index2) * Real.log (x / breakvalue12) / beta12 /
        (1 + (x / breakvalue12) ^ (-(index1 - index2) / beta12))) * (p 5).scale)
  | 6 => .ok (v * Real.log (x / breakvalue23) * (x / breakvalue23) ^ ((index2 - index3) / beta23) /
      (1 + (x / breakvalue23) ^ ((index2 - index3) / beta23)) * (p 6).scale)
  | 7 => .ok (v * (index2 - index3) * (x / breakvalue23) ^ ((index2 - index3) / beta23) /
      (1 + (x / breakvalue23) ^ ((index2 - index3) / beta23)) / breakvalue23 * (p 7).scale)
  | 8 => .ok (v * (-Real.log (1 + (x / breakvalue23) ^ ((index2 - index3) / beta23)) +
      (index2 - index3) * Real.log (x / breakvalue23) / beta23 /
        (1 + (x / breakvalue23) ^ (-(index2 - index3) / beta23))) * (p 8).scale)
  | _ => .throws

/-- `PowerLawSuperExpCutoff`, parameters Prefactor, Index1, Scale, Cutoff, Index2.
`value`, PowerLawSuperExpCutoff.cxx:36-53. -/
noncomputable def Sec1.value (p : Pars) (x : ℝ) : ℝ :=
  (p 0).tv * (x / (p 2).tv) ^ (p 1).tv * Real.exp (-(x / (p 3).tv) ^ (p 4).tv)

/-- PowerLawSuperExpCutoff.cxx:56-104. -/
noncomputable def Sec1.deriv (p : Pars) (i : Nat) (x : ℝ) : Res ℝ :=
  let prefactor := (p 0).tv
  let index1 := (p 1).tv
  let scale := (p 2).tv
  let cutoff := (p 3).tv
  let index2 := (p 4).tv
  let v := Sec1.value p x
  match i with
  | 0 => .ok (v / prefactor * (p 0).scale)
  | 1 => .ok (v * Real.log (x / scale) * (p 1).scale)
  | 2 => .ok (-v * index1 / scale * (p 2).scale)
  | 3 => .ok (v * ((x / cutoff) ^ index2 * index2 / cutoff) * (p 3).scale)
  | 4 => .ok (-v * (x / cutoff) ^ index2 * Real.log (x / cutoff) * (p 4).scale)
  | _ => .throws

/-- `std::log(1E100)`, the largest exponent. -/
noncomputable def maxExp : ℝ := Real.log (10 ^ 100)

/-- `PowerLawSuperExpCutoff2`, parameters Prefactor, Index1, Scale, Expfactor, Index2.
`value`, PowerLawSuperExpCutoff2.cxx:36-55. -/
noncomputable def Sec2.value (p : Pars) (x : ℝ) : ℝ :=
  (p 0).tv * (x / (p 2).tv) ^ (p 1).tv * Real.exp (min (-(p 3).tv * x ^ (p 4).tv) maxExp)

/-- PowerLawSuperExpCutoff2.cxx:58-106. -/
noncomputable def Sec2.deriv (p : Pars) (i : Nat) (x : ℝ) : Res ℝ :=
  let prefactor := (p 0).tv
  let index1 := (p 1).tv
  let scale := (p 2).tv
  let expfactor := (p 3).tv
  let index2 := (p 4).tv
  let v := Sec2.value p x
  match i with
  | 0 => .ok (v / prefactor * (p 0).scale)
  | 1 => .ok (v * Real.log (x / scale) * (p 1).scale)
  | 2 => .ok (-v * index1 / scale * (p 2).scale)
  | 3 => .ok (v * (-x ^ index2) * (p 3).scale)
  | 4 => .ok (-v * expfactor * x ^ index2 * Real.log x * (p 4).scale)
  | _ => .throws

/-- The exponent of `PowerLawSuperExpCutoff3`, PowerLawSuperExpCutoff3.cxx:53. -/
noncomputable def Sec3.expo (p : Pars) (x : ℝ) : ℝ :=
  ((p 1).tv + (p 3).tv * (p 4).tv) * Real.log (x / (p 2).tv) + (p 3).tv * (1 - (x / (p 2).tv) ^ (p 4).tv)

/-- `PowerLawSuperExpCutoff3`, parameters Prefactor, IndexS, Scale, Expfactor2, Index2.
`value`, PowerLawSuperExpCutoff3.cxx:36-54. -/
noncomputable def Sec3.value (p : Pars) (x : ℝ) : ℝ :=
  (p 0).tv * Real.exp (min (Sec3.expo p x) maxExp)

/-- PowerLawSuperExpCutoff3.cxx:57-105. -/
noncomputable def Sec3.deriv (p : Pars) (i : Nat) (x : ℝ) : Res ℝ :=
  let prefactor := (p 0).tv
  let indexS := (p 1).tv
  let scale := (p 2).tv
  let expfactor2 := (p 3).tv
  let index2 := (p 4).tv
  let v := Sec3.value p x
  match i with
  | 0 => .ok (v / prefactor * (p 0).scale)
  | 1 => .ok (v * Real.log (x / scale) * (p 1).scale)
  | 2 => .ok (v * (-(indexS + expfactor2 * index2) / scale + expfactor2 * index2 * (x / scale) ^ index2 / scale) *
      (p 2).scale)
  | 3 => .ok (v * (index2 * Real.log (x / scale) + 1 - (x / scale) ^ index2) * (p 3).scale)
  | 4 => .ok (v * (expfactor2 * Real.log (x / scale)) * (1 - (x / scale) ^ index2) * (p 4).scale)
  | _ => .throws

/-- The exponent of `PowerLawSuperExpCutoff4` for small `index2*y`,
PowerLawSuperExpCutoff4.cxx:57. -/
noncomputable def Sec4.small (p : Pars) (x : ℝ) : ℝ :=
  let y := Real.log (x / (p 2).tv)
  let y2 := (p 4).tv * y
  y * ((p 1).tv - (p 3).tv * y / 2 * (1 + y2 / 3 * (1 + y2 / 4)))

/-- The exponent otherwise, PowerLawSuperExpCutoff4.cxx:58. -/
noncomputable def Sec4.large (p : Pars) (x : ℝ) : ℝ :=
  let y := Real.log (x / (p 2).tv)
  let y2 := (p 4).tv * y
  ((p 1).tv + (p 3).tv / (p 4).tv) * y + (p 3).tv / (p 4).tv / (p 4).tv * (1 - Real.exp y2)

/-- `PowerLawSuperExpCutoff4`, parameters Prefactor, IndexS, Scale, ExpfactorS, Index2.
`value`, PowerLawSuperExpCutoff4.cxx:36-59. -/
noncomputable def Sec4.value (p : Pars) (x : ℝ) : ℝ :=
  let y := Real.log (x / (p 2).tv)
  let y2 := (p 4).tv * y
  if |y2| < 1 / 100 then (p 0).tv * Real.exp (Sec4.small p x)
  else (p 0).tv * Real.exp (min (Sec4.large p x) maxExp)

/-- PowerLawSuperExpCutoff4.cxx:62-119. -/
noncomputable def Sec4.deriv (p : Pars) (i : Nat) (x : ℝ) : Res ℝ :=
  let prefactor := (p 0).tv
  let indexS := (p 1).tv
  let scale := (p 2).tv
  let expfactorS := (p 3).tv
  let index2 := (p 4).tv
  let y := Real.log (x / scale)
  let y2 := index2 * y
  let v := Sec4.value p x
  match i with
  | 0 => .ok (v / prefactor * (p 0).scale)
  | 1 => .ok (v * y * (p 1).scale)
  | 2 => if |y2| < 1 / 100 then
      .ok (v / scale * (-indexS + expfactorS * y * (1 + y2 / 2 * (1 + y2 / 3))) * (p 2).scale)
    else .ok (v / scale * (-(indexS + expfactorS / index2) + expfactorS / index2 * Real.exp y2) * (p 2).scale)
  | 3 => if |y2| < 1 / 100 then .ok (v * (-y * y / 2 * (1 + y2 / 3 * (1 + y2 / 4))) * (p 3).scale)
    else .ok (v / index2 * (y + (1 - Real.exp y2) / index2) * (p 3).scale)
  | 4 => if |y2| < 1 / 100 then .ok (-v * expfactorS * y * y * y / 6 * (1 + y2 / 2) * (p 4).scale)
    else .ok (-v * expfactorS / index2 / index2 * (2 / index2 + y + (y - 2 / index2) * Real.exp y2) * (p 4).scale)
  | _ => .throws

end Verif.Spectra
