import Verif.Basic
import Mathlib.Algebra.Order.Floor.Ring
import Mathlib.Algebra.Order.Archimedean.Real.Basic
import Mathlib.Analysis.SpecialFunctions.Trigonometric.Inverse
/-
The estimate of the point-spread function in a pixel, src/PSFUtils.cxx.

Numbers are reals.  The point-spread function at an energy is a function of the separation in
degrees; positions are pairs of pixel coordinates that start at one.
-/
namespace Verif.PsfInt
open Real

/-- The value cut to `[0, n-1]`, PSFUtils.cxx:45; without entries `n-1` is a huge number. -/
noncomputable def cut (val : ℝ) (n : Nat) : ℝ :=
  if val < 0 then 0 else if n ≠ 0 ∧ (n : ℝ) - 1 < val then n - 1 else val

/-- The index of `get_index_and_remainder`, PSFUtils.cxx:48; for `n < 2` the number `n-2` is
huge. -/
noncomputable def index (val : ℝ) (n : Nat) : Nat :=
  let f := ⌊cut val n⌋.toNat
  if n < 2 then f else min f (n - 2)

/-- The remainder, PSFUtils.cxx:52. -/
noncomputable def rem (val : ℝ) (n : Nat) : ℝ := val - index val n

/-- `z[i][j]` without check. -/
def cell (z : List (List ℝ)) (i j : Nat) : Res ℝ := do
  let row ← vget z i
  vget row j

/-- `bilinear_on_grid`, PSFUtils.cxx:56-83. -/
noncomputable def bilinear (x y : ℝ) (z : List (List ℝ)) : Res ℝ := do
  let row0 ← vget z 0
  let ix := index x z.length
  let iy := index y row0.length
  let rx := rem x z.length
  let ry := rem y row0.length
  let sx := 1 - rx
  let sy := 1 - ry
  let z1 ← cell z ix iy
  let z2 ← cell z ix (iy + 1)
  let z3 ← cell z (ix + 1) iy
  let z4 ← cell z (ix + 1) (iy + 1)
  .ok ((sx * sy * z1) + (sx * ry * z2) + (rx * sy * z3) + (rx * ry * z4))

/-- The distance in the projection, PSFUtils.cxx:260-262, 1283-1285. -/
noncomputable def planeDist (size : ℝ) (src : ℝ × ℝ) (x y : ℝ) : ℝ := size * √((src.1 - x) ^ 2 + (src.2 - y) ^ 2)

/-- The offset of a pixel, PSFUtils.cxx:260-270. -/
noncomputable def offsetOf (size : ℝ) (src : ℝ × ℝ) (ix iy : Nat) (angSep : ℝ) : ℝ :=
  let s := planeDist size src (iy + 1) (ix + 1)
  if 1 / 1000000 < s then angSep / s - 1 else 0

/-- `createOffsetMap`, PSFUtils.cxx:235-272, for an empty vector; `angSep j` is the separation of
pixel `j` from the source. -/
noncomputable def offsetMap (n1 n2 : Nat) (size : ℝ) (src : ℝ × ℝ) (angSep : Nat → ℝ) : Res (List (List ℝ)) :=
  loop (fun j z => do
    let row ← vget z (j / n1)
    let row ← vset row (j % n1) (offsetOf size src (j / n1) (j % n1) (angSep j))
    vset z (j / n1) row) 0 (n1 * n2) (List.replicate n2 (List.replicate n1 0))

/-- The coordinate of a part of the pixel, PSFUtils.cxx:1279, 1281. -/
noncomputable def sub (c : ℝ) (i npts : Nat) : ℝ := c + i * (1 / npts) - 0.5 + 0.5 * (1 / npts)

/-- One part of the pixel, PSFUtils.cxx:1282-1287. -/
noncomputable def term (psf : ℝ → ℝ) (size : ℝ) (src : ℝ × ℝ) (x y : ℝ) (z : List (List ℝ)) : Res ℝ := do
  let scale ← bilinear (y - 1) (x - 1) z
  .ok (psf (planeDist size src x y * (1 + scale)))

/-- `integrate_psf_fast`, PSFUtils.cxx:1266-1291. -/
noncomputable def fast (psf : ℝ → ℝ) (size : ℝ) (src pix : ℝ × ℝ) (z : List (List ℝ)) (npts : Nat) : Res ℝ := do
  let s ← loop (fun i s => loop (fun j s => do
      let t ← term psf size src (sub pix.1 i npts) (sub pix.2 j npts) z
      .ok (s + t)) 0 npts s) 0 npts 0
  if npts = 0 then .ub else .ok (s / (npts * npts))

/-- The loop of `integrate_psf_adaptive`, PSFUtils.cxx:1246-1260; `npts` is `2^e`. -/
noncomputable def adapt (f : Nat → Res ℝ) (ftol : ℝ) (e : Nat) (v0 : ℝ) : Res ℝ := do
  let v1 ← f (2 ^ (e + 1))
  if v1 - v0 = 0 ∨ v1 = 0 then .ok v1
  else if h : |(v1 - v0) / v1| < ftol ∨ 64 ≤ 2 ^ (e + 1) then .ok v1
  else adapt f ftol (e + 1) v1
termination_by 6 - e
decreasing_by
  have h2 : ¬ 64 ≤ 2 ^ (e + 1) := fun hh => h (Or.inr hh)
  have : e + 1 < 6 := by
    by_contra hc
    exact h2 (le_trans (by norm_num) (Nat.pow_le_pow_right (by norm_num) (not_lt.1 hc)))
  omega

/-- The ratio to the peak, PSFUtils.cxx:1238-1241. -/
noncomputable def peakRatio (v0 peak : ℝ) : ℝ := if peak ≠ 0 then v0 / peak else 0

/-- `integrate_psf_adaptive`, PSFUtils.cxx:1221-1264; `f` is `integrate_psf_fast`. -/
noncomputable def adaptive (psf : ℝ → ℝ) (peak offset ftol threshold : ℝ) (f : Nat → Res ℝ) : Res ℝ :=
  let v0 := psf offset
  if peakRatio v0 peak < threshold then .ok v0 else adapt f ftol 0 v0

/-- `psfValue_annular`, PSFUtils.cxx:1187-1219.  A division by zero is undefined. -/
noncomputable def annular (integral : ℝ → ℝ) (offset sol : ℝ) : Res ℝ :=
  let size := √sol * 180 / π
  if offset ≤ size / 2 then
    let radius := arccos (1 - sol / 2 / π) * 180 / π
    if sol = 0 then .ub else .ok (integral radius / sol)
  else
    let theta1 := offset - size / 2
    let theta2 := offset + size / 2
    let d := 2 * π * (cos (theta1 * π / 180) - cos (theta2 * π / 180))
    if d = 0 then .ub else .ok ((integral theta2 - integral theta1) / d)

end Verif.PsfInt
