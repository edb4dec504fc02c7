import Verif.TrapQuad.Model
import Mathlib.Analysis.SpecialFunctions.Exp
import Mathlib.Analysis.SpecialFunctions.Trigonometric.Basic
import Mathlib.Algebra.Order.Floor.Ring
import Mathlib.Algebra.Order.Archimedean.Real.Basic
/-
Model of the predicted counts and fluxes of a source in src/Source.cxx, Likelihood/Source.h,
src/PointSource.cxx and src/DiffuseSource.cxx, and of src/CountsSpectra.cxx.  `double` is `ℝ`.
-/
namespace Verif.Npred
open Verif Real

/-- `vector::at`. -/
def vat (l : List ℝ) (k : ℕ) : Res ℝ :=
  match l[k]? with
  | some x => .ok x
  | none => .throws

/-- The integrand, Source.cxx:72-76, 147-151: spectrum times exposure, without test of the index. -/
noncomputable def integrand (energies exposure : List ℝ) (S : ℝ → ℝ) : Res (List ℝ) :=
  loop (fun k y => do
    let e ← vget energies k
    let x ← vget exposure k
    .ok (y ++ [S e * x])) 0 energies.length []

/-- `Source::Npred()`, Source.cxx:66-82. -/
noncomputable def npred (energies exposure : List ℝ) (S : ℝ → ℝ) : Res ℝ := do
  let y ← integrand energies exposure S
  (TrapQuad.Obj.ofVectors energies y true).integral

/-- Conversion to `size_t`; undefined for numbers from -1 downwards. -/
noncomputable def toSize (x : ℝ) : Res ℕ := open Classical in if x ≤ -1 then .ub else .ok ⌊x⌋.toNat

/-- The exposure at one energy, Source.cxx:273-285; `front` is the first energy, `step` the mean step of
the logarithm. -/
noncomputable def point (energies exposure : List ℝ) (front step logE : ℝ) : Res ℝ := do
  let kk ← toSize ((logE - log front) / step)
  if kk = energies.length - 1 then vget exposure (exposure.length - 1)
  else do
    let x0 ← vat exposure kk
    let e0 ← vat energies kk
    let x1 ← vat exposure (kk + 1)
    .ok (x0 + (logE - log e0) / step * (x1 - x0))

/-- The lower limit, Source.cxx:253-255. -/
noncomputable def lower (front emin : ℝ) : ℝ := open Classical in if emin < front then front else emin

/-- The upper limit, Source.cxx:256-258. -/
noncomputable def upper (back emax : ℝ) : ℝ := open Classical in if emax > back then back else emax

/-- The loop of `getExposureArrays`, Source.cxx:264-287 (`nee` is not given by any caller, so it is the
number of energies).  Divisions by zero are undefined. -/
noncomputable def resample (energies exposure : List ℝ) (front back emin emax : ℝ) : Res (List ℝ × List ℝ) :=
  let n := energies.length
  let step := log (back / front) / ((n : ℝ) - 1)
  let logestep := log (emax / emin) / ((n : ℝ) - 1)
  open Classical in
  if n = 1 ∨ step = 0 then .ub else
  loop (fun k (s : List ℝ × List ℝ) => do
    let logE := (k : ℝ) * logestep + log emin
    let x ← point energies exposure front step logE
    .ok (s.1 ++ [exp logE], s.2 ++ [x])) 0 n ([], [])

/-- The choice between the arrays of the region and new ones, Source.cxx:259-263. -/
noncomputable def choose (energies exposure : List ℝ) (front back lo hi : ℝ) : Res (List ℝ × List ℝ) :=
  open Classical in
  if lo = front ∧ hi = back then .ok (energies, exposure)
  else resample energies exposure front back lo hi

/-- `getExposureArrays`, Source.cxx:248-288. -/
noncomputable def arrays (energies exposure : List ℝ) (emin emax : ℝ) : Res (List ℝ × List ℝ) := do
  let front ← vget energies 0
  let back ← vget energies (energies.length - 1)
  let lo := lower front emin
  let hi := upper back emax
  choose energies exposure front back lo hi

/-- `Source::Npred(emin, emax)`, Source.cxx:113-135 (the test of the indices is only for the whole range
with a shorter vector of exposures, where this model says undefined instead of an exception). -/
noncomputable def npredRange (energies exposure : List ℝ) (S : ℝ → ℝ) (emin emax : ℝ) : Res ℝ := do
  let a ← arrays energies exposure emin emax
  npred a.1 a.2 S

/-- `NpredDeriv`, Source.cxx:137-156, 158-183, on the arrays: `pref` is the value of "Prefactor" if that
is the parameter, `dS` the derivative of the spectrum. -/
noncomputable def npredDeriv (energies exposure : List ℝ) (S dS : ℝ → ℝ) (pref : Option ℝ) : Res ℝ :=
  open Classical in
  match pref with
  | some v => if v ≠ 0 then (do let x ← npred energies exposure S; .ok (x / v)) else npred energies exposure dS
  | none => npred energies exposure dS

/-- `NpredDeriv(paramName, emin, emax)`, Source.cxx:158-183. -/
noncomputable def npredDerivRange (energies exposure : List ℝ) (S dS : ℝ → ℝ) (pref : Option ℝ) (emin emax : ℝ) : Res ℝ := do
  let a ← arrays energies exposure emin emax
  npredDeriv a.1 a.2 S dS pref

/-! ### Fluxes -/

/-- The energies of `flux(emin, emax, npts)` and its relatives, PointSource.cxx:289-294, 304-309, 337-342,
353-358, Source.h:437-443; the step is a division by zero for one point. -/
noncomputable def fluxGrid (emin emax : ℝ) (npts : ℕ) : List ℝ :=
  (List.range npts).map fun k : ℕ => emin * exp (log (emax / emin) / ((npts : ℝ) - 1) * k)

/-- The integral of a function over the grid: `flux`, `energyFlux` and their derivatives of a point
source over given energies, PointSource.cxx:272-287, 320-335. -/
noncomputable def fluxOn (f : ℝ → ℝ) (energies : List ℝ) : Res ℝ := do
  let r ← (TrapQuad.Obj.ofFunc f true).integralOn energies
  .ok r.2

/-- `flux(emin, emax, npts)` of a point source, PointSource.cxx:289-298; with `f` the function
`EnergyFlux`, `FluxDeriv` or `EnergyFluxDeriv` also 300-314, 337-363. -/
noncomputable def flux (f : ℝ → ℝ) (emin emax : ℝ) (npts : ℕ) : Res ℝ := fluxOn f (fluxGrid emin emax npts)

/-- `computeEnergyIntegral` over given energies, Source.h:454-467; `ang` is `angularIntegral`. -/
noncomputable def diffuseFluxOn (f ang : ℝ → ℝ) (energies : List ℝ) : Res ℝ :=
  (TrapQuad.Obj.ofVectors energies (energies.map fun e => f e * ang e) true).integral

/-- `computeEnergyIntegral` over a range, Source.h:433-446. -/
noncomputable def diffuseFlux (f ang : ℝ → ℝ) (emin emax : ℝ) (npts : ℕ) : Res ℝ := diffuseFluxOn f ang (fluxGrid emin emax npts)

/-- The spatial models that `angularIntegral` distinguishes; the isotropic one with its parameter. -/
inductive Shape
  | constant (value : ℝ)
  | radial
  | profile (integral : ℝ)
  | map (integral : ℝ → ℝ)

/-- `DiffuseSource::angularIntegral`, DiffuseSource.cxx:255-270. -/
noncomputable def angularIntegral : Shape → ℝ → ℝ
  | .constant _, _ => 4 * π
  | .radial, _ => 1
  | .profile i, _ => i
  | .map i, e => i e

/-! ### Counts spectra -/

/-- `CountsSpectra::setEbounds`, CountsSpectra.cxx:22-34, for unbinned analysis; with one bound or none
`nbounds - 1` wraps around or the step divides by zero (not used). -/
noncomputable def setEbounds (emin emax : ℝ) (nbounds : ℕ) : Res (List ℝ) :=
  if nbounds = 0 then .ub else
  .ok ((List.range (nbounds - 1)).map (fun k : ℕ => emin * exp (k * (log (emax / emin) / ((nbounds : ℝ) - 1)))) ++ [emax])

/-- `getSrcCounts` for unbinned analysis, CountsSpectra.cxx:36-62. -/
noncomputable def srcCounts (energies exposure : List ℝ) (S : ℝ → ℝ) : List ℝ → Res (List ℝ)
  | a :: b :: rest => do
    let c ← npredRange energies exposure S a b
    let cs ← srcCounts energies exposure S (b :: rest)
    .ok (c :: cs)
  | _ => .ok []

/-- Adding one source, CountsSpectra.cxx:98-101. -/
noncomputable def addCounts (total comp : List ℝ) : Res (List ℝ) :=
  loop (fun j t => do
    let x ← vget t j
    let y ← vget comp j
    vset t j (x + y)) 0 comp.length total

/-- The loop of `getTotalSrcCounts`, CountsSpectra.cxx:93-102. -/
noncomputable def totalLoop : List (List ℝ) → List ℝ → Res (List ℝ)
  | [], t => .ok t
  | c :: cs, t => do
    let t ← addCounts t c
    totalLoop cs t

/-- `getTotalSrcCounts`, CountsSpectra.cxx:86-104, on the counts of the sources. -/
noncomputable def totalCounts : List (List ℝ) → Res (List ℝ)
  | [] => .ok []
  | c :: cs => totalLoop cs c

end Verif.Npred
