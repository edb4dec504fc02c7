import Verif.Basic
import Verif.Spectra.Spec
import Mathlib.Analysis.SpecialFunctions.Pow.Real
/-
Models of the spectra with any number of pieces: `MultipleBrokenPowerLaw` and
`PiecewisePowerLaw`.

Parameters are numbered by their position; names ("Index3", "dNdE2") are replaced by the
position they stand for.  The vector of parameters is as long as `addParams` made it.
-/
namespace Verif.Pieces
open Verif.Spectra

/-- `std::upper_bound(v.begin(), v.end(), x) - v.begin()`, for a sorted vector: the position of
the first element greater than `x`, or the size. -/
noncomputable def upperBound (v : List ℝ) (x : ℝ) : Nat :=
  open Classical in v.findIdx (fun b => decide (x < b))

/-- One turn of the loop that adds the fixed energies as parameters and compares neighbours,
MultipleBrokenPowerLaw.cxx:39-48, PiecewisePowerLaw.cxx:46-55. -/
noncomputable def checkBody (v : List ℝ) (i : Nat) (_ : Unit) : Res Unit :=
  open Classical in do
    let b ← vget v i
    if 0 < i then
      let a ← vget v (i - 1)
      if ¬ a < b then .throws else .ok ()
    else .ok ()

/-- The loop. -/
noncomputable def checkIncreasing (v : List ℝ) : Res Unit := loop (checkBody v) 0 v.length ()

/-! ### MultipleBrokenPowerLaw

Parameters: 0 is Normalization, `1 + k` is Index`k`, the breaks follow. -/

/-- `addParams`, MultipleBrokenPowerLaw.cxx:22-49: the break energies kept, or an exception. -/
noncomputable def MBPL.addParams (photonIndexes breakEnergies : List ℝ) : Res (List ℝ) :=
  if photonIndexes.length ≠ breakEnergies.length + 1 then .throws
  else do
    checkIncreasing breakEnergies
    .ok breakEnergies

/-- `norm`, MultipleBrokenPowerLaw.cxx:125-141. -/
noncomputable def MBPL.norm (breaks : List ℝ) (p : Pars) (k : Nat) : Res ℝ :=
  let n0 := (p 0).tv
  if k ≤ 1 then .ok n0
  else do
    let x0 ← vget breaks 0
    loop (fun m my_norm => do
      let xm ← vget breaks m
      .ok (my_norm * (xm / x0) ^ ((p (m + 1)).tv - (p (m + 2)).tv))) 1 (k - 1) n0

/-- `value`, MultipleBrokenPowerLaw.cxx:51-66. -/
noncomputable def MBPL.value (breaks : List ℝ) (p : Pars) (x : ℝ) : Res ℝ := do
  let x0 ← vget breaks 0
  let k := upperBound breaks x
  let n ← MBPL.norm breaks p k
  .ok (n * (x / x0) ^ (p (k + 1)).tv)

/-- `derivByParamImp`, MultipleBrokenPowerLaw.cxx:68-123. -/
noncomputable def MBPL.deriv (breaks : List ℝ) (p : Pars) (i : Nat) (x : ℝ) : Res ℝ :=
  if breaks.length + 1 < i then .throws
  else do
    let x0 ← vget breaks 0
    let value ← MBPL.value breaks p x
    if i = 0 then .ok (value / (p 0).value)
    else if i = 1 then
      if x < x0 then .ok (value * Real.log (x / x0)) else .ok 0
    else
      let xmm1 ← vget breaks (i - 2)
      if x ≤ xmm1 then .ok 0
      else
        let k := upperBound breaks x + 1
        if i < k then
          let xm ← vget breaks (i - 1)
          .ok (value * Real.log (xm / xmm1))
        else .ok (value * Real.log (x / xmm1) * (p k).scale)

/-! ### PiecewisePowerLaw

Parameters: 0 is IndexL, 1 is IndexH, `2 + k` is dNdE`k`, the energies follow.
`decoupled` is `m_decoupledNormPar`: then dNdE`k` is the flux at the `k`-th energy,
otherwise it is its ratio to dNdE0 for `k > 0`. -/

/-- `addParams`, PiecewisePowerLaw.cxx:27-56. -/
noncomputable def PWPL.addParams (dNdEs energies : List ℝ) : Res (List ℝ) :=
  if dNdEs.length ≠ energies.length then .throws
  else do
    checkIncreasing energies
    .ok energies

/-- `norm`, PiecewisePowerLaw.cxx:161-173. -/
def PWPL.norm (decoupled : Bool) (n : Nat) (p : Pars) (k : Nat) : Res ℝ :=
  if n ≤ k then .throws
  else if decoupled then .ok (p (2 + k)).tv
  else if k = 0 then .ok (p 2).tv
  else .ok ((p 2).tv * (p (2 + k)).tv)

/-- `norm_scaled`, PiecewisePowerLaw.cxx:147-159. -/
def PWPL.normScaled (decoupled : Bool) (n : Nat) (p : Pars) (k : Nat) : Res ℝ :=
  if n ≤ k then .throws
  else if decoupled then .ok (p (2 + k)).value
  else if k = 0 then .ok (p 2).value
  else .ok ((p 2).value * (p (2 + k)).value)

/-- `plIndex`, PiecewisePowerLaw.cxx:175-188. -/
noncomputable def PWPL.plIndex (decoupled : Bool) (es : List ℝ) (p : Pars) (k : Nat) : Res ℝ :=
  if es.length ≤ k + 1 then .throws
  else do
    let dNdE0 := if k = 0 ∧ decoupled = false then 1 else (p (k + 2)).tv
    let dNdE1 := (p (k + 3)).tv
    let e1 ← vget es (k + 1)
    let e0 ← vget es k
    .ok (Real.log (dNdE1 / dNdE0) / Real.log (e1 / e0))

/-- `value`, PiecewisePowerLaw.cxx:58-76; `front` and `back` of an empty vector are
undefined. -/
noncomputable def PWPL.value (decoupled : Bool) (es : List ℝ) (p : Pars) (x : ℝ) : Res ℝ := do
  let front ← vget es 0
  if x ≤ front then
    let n ← PWPL.norm decoupled es.length p 0
    .ok (n * (x / front) ^ (p 0).tv)
  else
    let back ← vget es (es.length - 1)
    if back ≤ x then
      let n ← PWPL.norm decoupled es.length p (es.length - 1)
      .ok (n * (x / back) ^ (p 1).tv)
    else
      let k := upperBound es x - 1
      let n ← PWPL.norm decoupled es.length p k
      let e ← vget es k
      let g ← PWPL.plIndex decoupled es p k
      .ok (n * (x / e) ^ g)

/-- The part of the two derivative functions for IndexL and IndexH,
PiecewisePowerLaw.cxx:90-103 and 195-208. -/
noncomputable def PWPL.derivIndex (decoupled : Bool) (es : List ℝ) (p : Pars) (i : Nat) (x : ℝ) : Res ℝ := do
  if i = 0 then
    let front ← vget es 0
    if x < front then
      let v ← PWPL.value decoupled es p x
      .ok (v * Real.log (x / front))
    else .ok 0
  else
    let back ← vget es (es.length - 1)
    if back < x then
      let v ← PWPL.value decoupled es p x
      .ok (v * Real.log (x / back))
    else .ok 0

/-- The test `m_energies[k] <= x && (k < m_energies.size()-1 && x < m_energies[k+1])`,
PiecewisePowerLaw.cxx:133 and 243. -/
noncomputable def PWPL.within (es : List ℝ) (k : Nat) (x : ℝ) : Res Bool := do
  let ek ← vget es k
  if ek ≤ x ∧ k < es.length - 1 then
    let e ← vget es (k + 1)
    .ok (decide (x < e))
  else .ok false

/-- The last cases of both derivative functions, PiecewisePowerLaw.cxx:132-144 and 243-251,
`f` being the factor of the value. -/
noncomputable def PWPL.inner (es : List ℝ) (k : Nat) (x f : ℝ) : Res ℝ := do
  let first ← PWPL.within es k x
  let ek ← vget es k
  if first then
    let e ← vget es (k + 1)
    .ok (f * (1 - Real.log (x / ek) / Real.log (e / ek)))
  else if 0 < k then
    let e0 ← vget es (k - 1)
    if e0 < x ∧ x < ek then .ok (f * (Real.log (x / e0) / Real.log (ek / e0)))
    else .ok 0
  else .ok 0

/-- `derivByParamImp` for dNdE`k` when not decoupled, PiecewisePowerLaw.cxx:104-145. -/
noncomputable def PWPL.derivCoupled (es : List ℝ) (p : Pars) (k : Nat) (x : ℝ) : Res ℝ := do
  let n := es.length
  let v ← PWPL.value false es p x
  let nk ← PWPL.normScaled false n p k
  if k = 0 then .ok (v / nk)
  else
    let dNdE0 ← PWPL.normScaled false n p 0
    let back ← vget es (n - 1)
    if k = n - 1 ∧ back < x then .ok (v / nk * dNdE0)
    else
      let e0 ← vget es (k - 1)
      if k = n - 1 ∧ e0 < x then
        let ek ← vget es k
        .ok (v / nk * dNdE0 * (Real.log (x / e0) / Real.log (ek / e0)))
      else PWPL.inner es k x (v / nk * dNdE0)

/-- `derivByParam_decoupledNormPar` for dNdE`k`, PiecewisePowerLaw.cxx:209-252. -/
noncomputable def PWPL.derivDecoupled (es : List ℝ) (p : Pars) (k : Nat) (x : ℝ) : Res ℝ := do
  let n := es.length
  let v ← PWPL.value true es p x
  let nk ← PWPL.normScaled true n p k
  let front ← vget es 0
  let back ← vget es (n - 1)
  if (k = 0 ∧ x < front) ∨ (k = n - 1 ∧ back < x) then .ok (v / nk)
  else if k = 0 then
    let e1 ← vget es 1
    if x ≤ e1 then
      .ok (v / nk * (1 - Real.log (x / front) / Real.log (e1 / front)))
    else PWPL.inner es k x (v / nk)
  else
    let e0 ← vget es (k - 1)
    if k = n - 1 ∧ e0 < x then
      let ek ← vget es k
      .ok (v / nk * (Real.log (x / e0) / Real.log (ek / e0)))
    else PWPL.inner es k x (v / nk)

/-- `derivByParamImp`, PiecewisePowerLaw.cxx:78-145. -/
noncomputable def PWPL.deriv (decoupled : Bool) (es : List ℝ) (p : Pars) (i : Nat) (x : ℝ) : Res ℝ :=
  if es.length + 1 < i then .throws
  else if i < 2 then PWPL.derivIndex decoupled es p i x
  else if decoupled then PWPL.derivDecoupled es p (i - 2) x
  else PWPL.derivCoupled es p (i - 2) x

end Verif.Pieces
