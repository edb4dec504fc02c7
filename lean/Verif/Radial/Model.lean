import Mathlib.Analysis.SpecialFunctions.Trigonometric.Inverse
import Mathlib.MeasureTheory.Integral.IntervalIntegral.Basic
/-
Radially symmetric sources, src/RadialDisk.cxx and src/RadialGaussian.cxx.

The adaptive quadrature `dgaus8` of another package is taken to be the integral.  Angles are in
degrees, as in the program.
-/
namespace Verif.Radial
open Real

/-- `disk`, RadialDisk.cxx:29-34. -/
noncomputable def disk (x sigma : ℝ) : ℝ :=
  if x / sigma < 1 then (sigma * sigma * π)⁻¹ else 0

/-- `RadialDisk::value(delta, radius)`, RadialDisk.cxx:97-99 (and 92-95). -/
noncomputable def diskValue (delta radius : ℝ) : ℝ :=
  disk delta radius * ((π / 180) ^ 2)⁻¹

/-- `RadialDisk::RadialIntegrand::operator()`, RadialDisk.cxx:39-47; `fn` is the response at
the energy. -/
noncomputable def diskIntegrand (fn : ℝ → ℝ) (x sigma xp : ℝ) : ℝ :=
  let s2 := sigma ^ 2
  let dphi := if 1 < (xp + x) / sigma then 2 * arccos ((x ^ 2 + xp ^ 2 - s2) / (2 * x * xp)) else 2 * π
  xp * fn xp * dphi / (π * s2)

/-- `RadialDisk::convolve`, RadialDisk.cxx:49-61. -/
noncomputable def diskConvolve (fn : ℝ → ℝ) (x sigma : ℝ) : ℝ :=
  let xmin := max (x - sigma) 0
  let xmax := x + sigma
  ∫ xp in xmin..xmax, diskIntegrand fn x sigma xp

/-- `gauss`, RadialGaussian.cxx:30-34. -/
noncomputable def gauss (x sigma : ℝ) : ℝ :=
  1 / (2 * π * sigma * sigma) * exp (-x * x / (2 * sigma * sigma))

/-- `RadialGaussian::value(separation, sigma)`, RadialGaussian.cxx:108-110 (and 103-106). -/
noncomputable def gaussValue (separation sigma : ℝ) : ℝ :=
  gauss separation sigma * ((π / 180) ^ 2)⁻¹

/-- `RadialGaussian::RadialIntegrand::operator()`, RadialGaussian.cxx:41-50; `i0s` is
`gsl_sf_bessel_I0_scaled`. -/
noncomputable def gaussIntegrand (i0s fn : ℝ → ℝ) (x sigma xp : ℝ) : ℝ :=
  let s2 := sigma ^ 2
  let xx := x * xp / s2
  let je := i0s xx
  xp * fn xp * je * exp (xx - (x * x + xp * xp) / (2 * s2)) / s2

/-- `RadialGaussian::convolve`, RadialGaussian.cxx:52-71. -/
noncomputable def gaussConvolve (i0s fn : ℝ → ℝ) (x sigma : ℝ) : ℝ :=
  let xmin := max (x - 6 * sigma) 0
  let xmax := x + 6 * sigma
  let v0 := if xmin < 0 then ∫ xp in xmin..0, gaussIntegrand i0s fn x sigma xp else 0
  let v1 := ∫ xp in 0..xmax, gaussIntegrand i0s fn x sigma xp
  v0 + v1

end Verif.Radial
