import Verif.Basic
import Verif.Wcs.Model
import Mathlib.Analysis.SpecialFunctions.Trigonometric.Basic
/-
The map of counts of a diffuse source, src/PSFUtils.cxx, and the test of the geometry of a counts map,
src/CountsMap.cxx.

Numbers are reals.  The convolved maps and the solid angles are inputs; the resampling factor is a
natural number.
-/
namespace Verif.DiffMap
open Real

/-- One axis of the finer map: number of pixels, reference pixel, and how many pixels are left out
at both ends. -/
structure Axis where
  naxis : Nat
  crpix : ℝ
  lo : Nat
  hi : Nat

/-- The axis for a spatial function, PSFUtils.cxx:409-412. -/
noncomputable def axisFunction (n : Nat) (crpix : ℝ) (r : Nat) : Axis := ⟨n * r, r * (crpix - 1 / 2) + 1 / 2, 0, 0⟩

/-- The `size_t` from half of the difference, PSFUtils.cxx:426-433: a negative number from -1 on is
undefined, and truncated before. -/
def halfDiff (mapsize nr : Nat) : Res Nat := if mapsize + 2 ≤ nr then .ub else .ok ((mapsize - nr) / 2)

/-- The axis for a map made by gtbin, PSFUtils.cxx:413-461. -/
noncomputable def axisConforming (n r mapsize : Nat) (resample : Bool) : Res Axis := do
  let q ← halfDiff mapsize (n * r)
  let test : ℤ := ((mapsize - q - q : Nat) : ℤ) - n * r
  let lo := if resample ∧ test ≠ 0 then q + 1 else q
  let c : ℝ := (mapsize + 1) / 2
  if ¬ resample ∧ n % 2 = 1 then .ok ⟨mapsize, c + 1 / 2, lo + 1, q⟩ else .ok ⟨mapsize, c, lo, q⟩

/-- The axis for other maps, PSFUtils.cxx:467-479. -/
noncomputable def axisOther (n : Nat) (crpix : ℝ) (r : Nat) : Axis :=
  ⟨if n * r % 2 = 1 then n * r + 1 else n * r, crpix * r, 0, 1⟩

/-- `checkMapConforms` for one axis, CountsMap.cxx:633. -/
noncomputable def conforms (n : Nat) (crpix : ℝ) : Bool := open Classical in decide (Wcs.trunc (2 * crpix) = n + 1)

/-- The position of pixel `i` of the finer map relative to the reference direction, in pixels of the
counts map: the pixels are smaller by the factor, PSFUtils.cxx:404-405, 485-491. -/
noncomputable def position (a : Axis) (r i : Nat) : ℝ := ((i : ℝ) + 1 - a.crpix) / r

/-- What the loops of `makeDiffuseMap_wcs` use. -/
structure In where
  n1 : Nat
  n2 : Nat
  ne : Nat
  r : Nat
  a1 : Axis
  a2 : Axis
  sol : Nat → ℝ
  /-- the convolved map: energy, row, column -/
  img : Nat → Nat → Nat → ℝ
  verbose : Bool

/-- One pixel of the finer map, PSFUtils.cxx:505-519. -/
noncomputable def addPix (x : In) (npts kmin k j i : Nat) (m : List ℝ) : Res (List ℝ) :=
  if x.r = 0 then .ub
  else if i % x.r = 0 ∧ j % x.r = 0 ∧ x.verbose ∧ npts / 20 = 0 then .ub
  else
    let pix := (j - x.a2.lo) / x.r * x.n1 + (i - x.a1.lo) / x.r
    if x.n1 * x.n2 ≤ pix then .throws
    else if k < kmin then .ub
    else do
      let v ← vget m ((k - kmin) * (x.n1 * x.n2) + pix)
      vset m ((k - kmin) * (x.n1 * x.n2) + pix) (v + x.img k j i / x.r / x.r * x.sol pix)

/-- The loops over one map, PSFUtils.cxx:503-521. -/
noncomputable def layer (x : In) (npts kmin k : Nat) (m : List ℝ) : Res (List ℝ) :=
  loop (fun j m => loop (fun i m => addPix x npts kmin k j i m) x.a1.lo (x.a1.naxis - x.a1.hi - x.a1.lo) m)
    x.a2.lo (x.a2.naxis - x.a2.hi - x.a2.lo) m

/-- `makeDiffuseMap_wcs`, PSFUtils.cxx:366-539; the loop runs over all energies. -/
noncomputable def diffuse (x : In) (kmin : Nat) (kmax : ℤ) (m : List ℝ) : Res (List ℝ) :=
  let top := if kmax < 0 then x.ne else kmax.toNat
  if top < kmin then .throws
  else
    let npts := (top - kmin) * (x.n1 * x.n2)
    loop (fun k m => layer x npts kmin k m) 0 x.ne (vresize m npts 0)

/-! ### Healpix -/

/-- The resampling factor as a power of two, PSFUtils.cxx:567-571; `t` is the power so far. -/
def pow2 (r : Nat) (t : Nat) (ht : 0 < t) : Nat := if t < r then pow2 r (t * 2) (by omega) else t
termination_by r - t

/-- The loops of `makeDiffuseMap_healpix`, PSFUtils.cxx:583-609; `out` is the convolved map for an
energy. -/
noncomputable def diffuseHpx (ne nPix : Nat) (out : Nat → Nat → ℝ) (glo : Nat → Nat) (solidAngle : ℝ) (kmin : Nat) (kmax : ℤ)
    (m : List ℝ) : Res (List ℝ) :=
  let top := if kmax < 0 then ne else kmax.toNat
  if top < kmin then .throws
  else do
    let s ← loop (fun k s => if ne ≤ k then .ub else
      loop (fun i (s : List ℝ × Nat) => do
        let m ← vset s.1 s.2 (out k (glo i) * solidAngle)
        .ok (m, s.2 + 1)) 0 nPix s) kmin (top - kmin) (vresize m ((top - kmin) * nPix) 0, 0)
    .ok s.1

/-- `fillHealpixFromWcsMap` for the whole sky, PSFUtils.cxx:157-178; `tgt` is the healpix pixel of a
pixel of the input.  The ratio of the solid angles is computed and not used. -/
noncomputable def fillAll (nx ny npix : Nat) (tgt : Nat → Nat → Nat) (v : Nat → Nat → ℝ) : Res (List ℝ) :=
  loop (fun i h => loop (fun j h => do
    let old ← vget h (tgt i j)
    vset h (tgt i j) (old + v i j)) 0 ny h) 0 nx (List.replicate npix 0)

/-- `fillHealpixFromWcsMap` for a list of pixels, PSFUtils.cxx:137-154; `value` interpolates in the
input at the centre of a pixel. -/
noncomputable def fillSome (npix : Nat) (value : Nat → ℝ) : List Nat → List ℝ → Res (List ℝ)
  | [], h => .ok h
  | p :: ps, h => do
    let h ← vset h p (value p)
    fillSome npix value ps h

/-- One value of `makeDiffuseMap_native`, PSFUtils.cxx:820-823. -/
noncomputable def nativeValue (h solidAngle : ℝ) : ℝ := h * solidAngle * ((π / 180) * (π / 180))

/-- The factor of `rebinDiffuseMap`, PSFUtils.cxx:199-206. -/
noncomputable def rebinFactor (minbinsz dataSize size : ℝ) : Nat :=
  let m := min minbinsz dataSize
  if size < m then ⌊m / size⌋.toNat else 1

/-- `computeResampFactor`, PSFUtils.cxx:214-233; without a map the ratio is one. -/
noncomputable def resampFactor (resample : Bool) (factor dataSize modelSize : ℝ) : ℝ :=
  if ¬ resample then 1 else max factor (max 1 (Wcs.trunc (dataSize / modelSize) : ℝ))

end Verif.DiffMap
