import Verif.Vec
import Mathlib.Analysis.SpecialFunctions.Log.Base
import Mathlib.Analysis.SpecialFunctions.Pow.Real
/-
Model of the energy-grid and quadrature helpers of `src/FitUtils.cxx` and
`src/Source.cxx`.  `double` is `ℝ`.
-/
namespace Verif.Energy

open Verif.Vec

/-- Loop of `expand_energies`, FitUtils.cxx:68-73; state: output vector,
`log_val_lo`, `log_val_hi`.  (`std::log10` is `Real.logb 10`, `std::pow(10., x)` is
`10 ^ x`.) -/
noncomputable def expandLoop (nee b : Nat) (stepLo stepHi : ℝ) (s : List ℝ × ℝ × ℝ) :
    Res (List ℝ × ℝ × ℝ) :=
  loop (fun i s => do
    let (out, lo, hi) := s
    let lo := lo + stepLo
    let hi := hi + stepHi
    let out ← vset out (b - i) ((10 : ℝ) ^ lo)
    let out ← vset out (nee + b + i - 1) ((10 : ℝ) ^ hi)
    .ok (out, lo, hi)) 1 b s

/-- `expand_energies`, FitUtils.cxx:52-77.  `edisp_bins` is taken to be non-negative,
as all callers make it. -/
noncomputable def expandEnergies (energies : List ℝ) (b : Nat) : Res (List ℝ) :=
  let nee := energies.length
  if nee < 2 then .ok energies
  else do
    let out := List.replicate b 0 ++ energies ++ List.replicate b 0
    let e0 ← vget energies 0
    let e1 ← vget energies 1
    let en ← vget energies (nee - 1)
    let em ← vget energies (nee - 2)
    let lo := Real.logb 10 e0
    let hi := Real.logb 10 en
    let (out, _, _) ← expandLoop nee b (lo - Real.logb 10 e1) (hi - Real.logb 10 em) (out, lo, hi)
    .ok out

/-- `log_energy_ratios`, FitUtils.cxx:79-85.  For an empty vector `size() - 1` wraps
around and `resize` throws `length_error`. -/
noncomputable def logEnergyRatios (energies : List ℝ) : Res (List ℝ) :=
  if energies.length = 0 then .throws
  else (List.range (energies.length - 1)).mapM (fun i => do
    let a ← vget energies (i + 1)
    let b ← vget energies i
    .ok (Real.log (a / b)))

/-- `get_spectral_weights`, FitUtils.cxx:1918-1929. -/
noncomputable def spectralWeights (spec energies ratios : List ℝ) : Res (List (ℝ × ℝ)) :=
  (List.range ratios.length).mapM (fun i => do
    let s0 ← vget spec i
    let e0 ← vget energies i
    let r ← vget ratios i
    let s1 ← vget spec (i + 1)
    let e1 ← vget energies (i + 1)
    .ok (s0 * e0 * r / 2, s1 * e1 * r / 2))

/-- `pixelCounts_loglogQuad`, FitUtils.cxx:47-49 (and `Source::pixelCounts`). -/
noncomputable def loglogQuad (emin emax y1 y2 logRatio : ℝ) : ℝ :=
  (y1 * emin + y2 * emax) / 2 * logRatio

/-- `pixelCounts_linearQuad`, FitUtils.cxx:42-44. -/
noncomputable def linearQuad (emin emax y1 y2 : ℝ) : ℝ := (y1 + y2) * (emax - emin) / 2

end Verif.Energy
