import Verif.Basic
import Mathlib.Analysis.SpecialFunctions.Trigonometric.Basic
import Mathlib.Analysis.SpecialFunctions.Log.Basic
/-
The point-spread function averaged over an observation, src/MeanPsf.cxx.

The livetime-weighted sums over instrument responses (`expCube().value`) are inputs.
The table `m_psfValues` is a flat list; `n` is the number of separations.  The static
list of separations is not empty when it is used (`init` fills it).
-/
namespace Verif.MeanPsf
open Real

/-- `vect.at(i)`. -/
def vat {α : Type} (l : List α) (i : Nat) : Res α :=
  match l[i]? with
  | some a => .ok a
  | none => .throws

/-- `std::upper_bound(v.begin(), v.end(), x) - v.begin()`: the position of the first
element greater than `x`, or the size. -/
noncomputable def upperBound (v : List ℝ) (x : ℝ) : Nat :=
  open Classical in v.findIdx (fun b => decide (x < b))

/-- `createLogArray`, MeanPsf.cxx:290-299, in `init` with `(1e-4, 70, 400)`. -/
noncomputable def createLogArray (xmin xmax : ℝ) (npts : Nat) : List ℝ :=
  let xstep := log (xmax / xmin) / ((npts : ℝ) - 1)
  0 :: (List.range npts).map fun i : Nat => xmin * exp ((i : ℝ) * xstep)

/-- One value of the table in `init`, MeanPsf.cxx:37-51: the sum over the responses
divided by the exposure. -/
noncomputable def entry (exposure raw : ℝ) : ℝ := if exposure > 0 then raw / exposure else 0

/-- The table filled by `init`, MeanPsf.cxx:35-53, before normalisation; `raw k j` is
the sum for energy `k` and separation `j`. -/
noncomputable def table (n : Nat) (exposures : List ℝ) (raw : Nat → Nat → ℝ) : List ℝ :=
  (List.range exposures.length).flatMap fun k =>
    (List.range n).map fun j => entry (exposures.getD k 0) (raw k j)

/-- `2.*M_PI*m_psfValues.at(index)*std::sin(theta)`, MeanPsf.cxx:125-126. -/
noncomputable def ringY (psf theta : ℝ) : ℝ := 2 * π * psf * sin theta

/-- The integral of a straight line from `t1` to `t`, MeanPsf.cxx:127-130, 172-176 and
187-189. -/
noncomputable def lineIntegral (t1 t2 y1 y2 t : ℝ) : ℝ :=
  let slope := (y2 - y1) / (t2 - t1)
  let intercept := y1 - t1 * slope
  slope * (t * t - t1 * t1) / 2 + intercept * (t - t1)

/-- Body of the first inner loop of `computePartialIntegrals`, MeanPsf.cxx:121-132. -/
noncomputable def partialBody (seps psf : List ℝ) (k j : Nat) (acc : List ℝ) : Res (List ℝ) := do
  let index := k * seps.length + j
  let s1 ← vat seps j
  let s2 ← vat seps (j + 1)
  let theta1 := s1 * π / 180
  let theta2 := s2 * π / 180
  let p1 ← vat psf index
  let p2 ← vat psf (index + 1)
  let value := lineIntegral theta1 theta2 (ringY p1 theta1) (ringY p2 theta2) theta2
  let back ← vget acc (acc.length - 1)
  .ok (acc ++ [back + value])

/-- Body of the normalising loop, MeanPsf.cxx:136-140: the table and the partial
integrals; `back()` is read again each time. -/
noncomputable def normBody (n k j : Nat) (s : List ℝ × List ℝ) : Res (List ℝ × List ℝ) := do
  let back ← vget s.2 (s.2.length - 1)
  let v ← vat s.1 (k * n + j)
  let p ← vget s.2 j
  let q ← vset s.2 j (p / back)
  .ok (s.1.set (k * n + j) (v / back), q)

/-- The normalisation, MeanPsf.cxx:135-144: only if the sum is not zero. -/
noncomputable def normalise (n k : Nat) (psf acc : List ℝ) : Res (List ℝ × List ℝ) := do
  let back ← vget acc (acc.length - 1)
  if back ≠ 0 then loop (normBody n k) 0 n (psf, acc) else .ok (psf, acc)

/-- Body of the loop over energies of `computePartialIntegrals`, MeanPsf.cxx:118-146. -/
noncomputable def rowBody (seps : List ℝ) (k : Nat) (s : List ℝ × List (List ℝ)) :
    Res (List ℝ × List (List ℝ)) := do
  let acc ← loop (partialBody seps s.1 k) 0 (seps.length - 1) [0]
  let (psf, acc) ← normalise seps.length k s.1 acc
  .ok (psf, s.2 ++ [acc])

/-- A `MeanPsf` object. -/
structure Obj where
  /-- `s_separations` -/
  seps : List ℝ
  /-- `m_energies` -/
  energies : List ℝ
  /-- `m_psfValues` -/
  psf : List ℝ
  /-- `m_partialIntegrals` -/
  parts : List (List ℝ)

/-- `computePartialIntegrals`, MeanPsf.cxx:116-147, on the table of `init`. -/
noncomputable def build (seps energies psf : List ℝ) : Res Obj := do
  let (psf, parts) ← loop (rowBody seps) 0 energies.length (psf, [])
  .ok ⟨seps, energies, psf, parts⟩

/-- `init`, MeanPsf.cxx:29-60, apart from the peak values. -/
noncomputable def init (seps energies exposures : List ℝ) (raw : Nat → Nat → ℝ) : Res Obj :=
  build seps energies (table seps.length exposures raw)

/-- The partial integral of energy `k` up to `theta` in interval `j`,
MeanPsf.cxx:167-177 and 184-190. -/
noncomputable def cumAt (m : Obj) (k j : Nat) (theta : ℝ) : Res ℝ := do
  let index := k * m.seps.length + j
  let s1 ← vget m.seps j
  let s2 ← vget m.seps (j + 1)
  let theta1 := s1 * π / 180
  let theta2 := s2 * π / 180
  let p1 ← vat m.psf index
  let p2 ← vat m.psf (index + 1)
  let row ← vat m.parts k
  let c ← vat row j
  .ok (c + lineIntegral theta1 theta2 (ringY p1 theta1) (ringY p2 theta2) theta)

/-- The last part of `integral`, MeanPsf.cxx:164-194. -/
noncomputable def integralIn (m : Obj) (k : Nat) (angle energy : ℝ) : Res ℝ := do
  let j := upperBound m.seps angle - 1
  let theta := angle * π / 180
  let integral1 ← cumAt m k j theta
  if k = m.energies.length - 1 then .ok integral1
  else do
    let integral2 ← cumAt m (k + 1) j theta
    let e0 ← vat m.energies k
    let e1 ← vat m.energies (k + 1)
    .ok ((energy - e0) / (e1 - e0) * (integral2 - integral1) + integral1)

/-- `MeanPsf::integral`, MeanPsf.cxx:149-195.  `k` is a `size_t`: below the first energy it
is the largest number and the test of 152 throws.  Without energies that test passes (both
sides are the largest number) and a table access throws later. -/
noncomputable def integral (m : Obj) (angle energy : ℝ) : Res ℝ := do
  let u := upperBound m.energies energy
  if u = 0 ∧ m.energies ≠ [] then .throws
  else do
    let front ← vget m.seps 0
    if angle < front then .ok 0
    else do
      let back ← vget m.seps (m.seps.length - 1)
      if back ≤ angle then .ok 1
      else if m.energies = [] then .throws
      else integralIn m (u - 1) angle energy

/-- `MeanPsf::operator()`, MeanPsf.cxx:77-92; `bilinear` is the interpolation of
st_facilities, which is not in the repository. -/
noncomputable def value (bilinear : ℝ → ℝ → ℝ) (m : Obj) (energy theta : ℝ) : Res ℝ :=
  if m.energies = [] then .throws
  else do
    let e0 ← vget m.energies 0
    let e1 ← vget m.energies (m.energies.length - 1)
    if energy < e0 ∨ e1 < energy then .ok 0
    else do
      let back ← vget m.seps (m.seps.length - 1)
      if back < theta then .ok 0 else .ok (bilinear energy theta)

/-- `MeanPsf::derivative`, MeanPsf.cxx:236-254. -/
noncomputable def derivative (m : Obj) (angle energy : ℝ) : Res ℝ := do
  let j := upperBound m.seps angle
  let k := upperBound m.energies energy
  if j = 0 ∨ m.seps.length ≤ j then .throws
  else if k = 0 then .throws
  else do
    let index := (k - 1) * m.seps.length + (j - 1)
    let p1 ← vat m.psf (index + 1)
    let p0 ← vat m.psf index
    let s1 ← vget m.seps j
    let s0 ← vget m.seps (j - 1)
    .ok ((p1 - p0) / (s1 - s0))

end Verif.MeanPsf
