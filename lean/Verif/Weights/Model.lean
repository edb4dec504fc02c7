import Verif.Basic
import Mathlib.Analysis.SpecialFunctions.Sqrt
/-
Maps of the effective background, of the factors `alpha` shared by several components, and of the
weights of a fit (src/CountsMapBase.cxx, src/CountsMap.cxx, src/CountsMapHealpix.cxx,
src/WeightMap.cxx).

Values are reals (the program stores floats).  A division of reals by zero, after which the
program goes on with an infinity or no number, is the outcome `ub`, and so is a remainder for the
divisor zero, which stops the program.
-/
namespace Verif.Weights

/-- `a / b`, without a value if `b` vanishes. -/
noncomputable def divide (a b : ℝ) : Res ℝ := by
  classical exact if b = 0 then .ub else .ok (a / b)

/-! ### Several components -/

/-- The first loop of `getBMinAndSumMinOverK2` (src/CountsMapBase.cxx:69-78): the smallest value;
`none` is the start value `1e99`, which is infinite as a float. -/
noncomputable def minLoop : Option ℝ → List ℝ → Option ℝ
  | b, [] => b
  | none, x :: xs => minLoop (some x) xs
  | some b, x :: xs => minLoop (some (if b > x then x else b)) xs

/-- The second loop (src/CountsMapBase.cxx:83-88). -/
noncomputable def sumLoop (bmin : ℝ) : ℝ → List ℝ → Res ℝ
  | s, [] => .ok s
  | s, x :: xs => do
    let a ← divide bmin x
    sumLoop bmin (s + a * a) xs

/-- `CountsMapBase::getBMinAndSumMinOverK2` (src/CountsMapBase.cxx:67-89), the iterators being
replaced by the values they point to.  Without components the smallest value is infinite. -/
noncomputable def bMinAndSum (xs : List ℝ) : Res (ℝ × ℝ) :=
  match minLoop none xs with
  | none => .ub
  | some bmin =>
    if bmin ≤ 0 then .ok (bmin, 0)
    else do
      let s ← sumLoop bmin 0 xs
      .ok (bmin, s)

/-- `CountsMapBase::getAlphaWts` (src/CountsMapBase.cxx:91-98). -/
noncomputable def alphaWts (eps2 : ℝ) (xs : List ℝ) : Res ℝ := do
  let r ← bMinAndSum xs
  divide (1 + eps2 * r.1) (1 + eps2 * r.1 * r.2)

/-- `idx % nprint == 0` for `nprint = n/20` (src/CountsMapBase.cxx:108-113, 130-138): whether a
dot is printed. -/
def dot (n idx : Nat) : Res Bool :=
  if n / 20 = 0 then .ub else .ok (decide (idx % (n / 20) = 0))

/-- The values of the vectors at one place. -/
def column (idx : Nat) : List (List ℝ) → Res (List ℝ)
  | [] => .ok []
  | v :: vs => do
    let x ← vget v idx
    let xs ← column idx vs
    .ok (x :: xs)

/-- `CountsMapBase::getAlphaVector` (src/CountsMapBase.cxx:100-124); the values are read when the
minimum is looked for, as in `getAlphaWts`. -/
noncomputable def alphaVector (eps2 : ℝ) (out : List ℝ) (vects : List (List ℝ)) : Res (List ℝ) :=
  loop (fun idx out => do
    let _ ← dot out.length idx
    let xs ← column idx vects
    let a ← alphaWts eps2 xs
    vset out idx a) 0 out.length out

/-- `CountsMapBase::makeAlphaMap` (src/CountsMapBase.cxx:150-161), a map being the vector of its
values; `none` is the null pointer. -/
noncomputable def makeAlphaMap (eps2 : ℝ) : List (List ℝ) → Res (Option (List ℝ))
  | [] => .ok none
  | m :: ms => do
    let r ← alphaVector eps2 m (m :: ms)
    .ok (some r)

/-! ### The weights -/

/-- The factor for one place (src/CountsMapBase.cxx:142-145): beyond the end of the vector of
factors there is none. -/
def applyAlpha (alphas : List ℝ) (idx : Nat) (w : ℝ) : ℝ :=
  match alphas[idx]? with
  | some a => w * a
  | none => w

/-- `CountsMapBase::getWts` (src/CountsMapBase.cxx:126-148). -/
noncomputable def getWts (eps2 : ℝ) (wts alphas beff : List ℝ) : Res (List ℝ) :=
  loop (fun idx wts => do
    let _ ← dot beff.length idx
    let b ← vget beff idx
    let w ← divide 1 (1 + eps2 * b)
    vset wts idx (applyAlpha alphas idx w)) 0 wts.length wts

/-- `CountsMapBase::makeWtsMap` (src/CountsMapBase.cxx:174-182). -/
noncomputable def makeWtsMap (eps2 : ℝ) (alphaMap : Option (List ℝ)) (beff : List ℝ) : Res (List ℝ) :=
  getWts eps2 beff (alphaMap.getD []) beff

/-! ### The effective background -/

/-- `CountsMapBase::fillEnergyBinWidths` (src/CountsMapBase.cxx:46-55) for at least one edge. -/
def widths : List ℝ → List ℝ
  | a :: b :: l => (b - a) :: widths (b :: l)
  | _ => []

/-- `CountsMapBase::fillEnergyBinGeomCenters` (src/CountsMapBase.cxx:57-66) for at least one
edge. -/
noncomputable def centers : List ℝ → List ℝ
  | a :: b :: l => Real.sqrt (b * a) :: centers (b :: l)
  | _ => []

/-- The loop over the layers below (src/CountsMap.cxx:276-279, src/CountsMapHealpix.cxx:151-154),
from layer `kinteg` and place `fillIt` downwards; below the first layer `energyBinMeans` would be
read before its begin. -/
noncomputable def addBelow (means : List ℝ) (emin addend : ℝ) (kStep : Nat) :
    Nat → Nat → List ℝ → Res (List ℝ)
  | kinteg, fillIt, out => do
    let m ← vget means kinteg
    if m < emin then .ok out
    else do
      let v ← vget out fillIt
      let out ← vset out fillIt (v + addend)
      if fillIt < kStep then .ok out
      else match kinteg with
        | 0 => .ub
        | kinteg + 1 => addBelow means emin addend kStep kinteg (fillIt - kStep) out
  termination_by kinteg => kinteg

/-- The loop over the pixels of one layer (src/CountsMap.cxx:266-281,
src/CountsMapHealpix.cxx:143-155); the state is the output and `idx_fill`. -/
noncomputable def addLayer (means : List ℝ) (mean factor efact : ℝ) (kStep k : Nat) (conv : List ℝ) (s : List ℝ × Nat) :
    Res (List ℝ × Nat) :=
  loop (fun i s => do
    let c ← vget conv i
    let out ← vset s.1 s.2 0
    let emin ← divide mean efact
    let out ← addBelow means emin (c * factor) kStep k s.2 out
    .ok (out, s.2 + 1)) 0 conv.length s

/-- `CountsMap::makeBkgEffMap` (src/CountsMap.cxx:230-286) and `CountsMapHealpix::makeBkgEffMap`
(src/CountsMapHealpix.cxx:108-160) after the convolution: `edges` are the energies of the map,
`conv` the layers of the convolved map in the order of the pixels, `peak` is `psf.peakValue`,
`kStep` the number of pixels, `out` the copy of the counts. -/
noncomputable def bkgEff (peak : ℝ → ℝ) (efact : ℝ) (edges : List ℝ) (conv : List (List ℝ)) (kStep : Nat) (out : List ℝ) :
    Res (List ℝ) := do
  let r ← loop (fun k s => do
    let mean ← vget (centers edges) k
    let w ← vget (widths edges) k
    let factor ← divide w (peak mean)
    let layer ← vget conv k
    addLayer (centers edges) mean factor efact kStep k layer s) 0 (edges.length - 1) (out, 0)
  .ok r.1

/-! ### Weights for the pixels of a counts map -/

/-- One weight of `WeightMap::makeProjectedMap` (src/WeightMap.cxx:116-132): the second component
tells whether the value `1` was put in place of a missing one. -/
def oneWeight (inMap : Bool) (value : Res ℝ) : Res (ℝ × Bool) :=
  if inMap then
    match value with
    | .ok w => .ok (w, false)
    | .throws => .ok (1, true)
    | .ub => .ub
  else .ok (1, true)

/-- `WeightMap::makeProjectedMap` (src/WeightMap.cxx:105-136) for pixels of type `P`: `inside` and
`value` are `insideMap` and `operator()` of the map of weights.  The state is the vector of
weights and `extrapolated`; `.at` throws beyond the end. -/
def projected {P : Type} (inside : P → Res Bool) (value : P → ℝ → Res ℝ) (pixels : List P) (energies : List ℝ) :
    Res (List ℝ × Bool) :=
  loop (fun j s => do
    let p ← vget pixels j
    let b ← inside p
    loop (fun k s => do
      let e ← vget energies k
      let w ← oneWeight b (value p e)
      if k * pixels.length + j < s.1.length then
        .ok (s.1.set (k * pixels.length + j) w.1, s.2 || w.2)
      else .throws) 0 energies.length s) 0 pixels.length
    (List.replicate (energies.length * pixels.length) 0, false)

end Verif.Weights
