import Verif.PsfMap.Lemmas
import Mathlib.Tactic.NormNum
import Mathlib.Analysis.Real.Pi.Bounds
set_option linter.unusedSectionVars false
set_option linter.unusedSimpArgs false
set_option linter.unusedVariables false
/-
C88: the map of counts of a point source.
-/
namespace Verif.PsfMap
open Verif Verif.Vec Real Spec

/-- The last layer for the argument `kmax`. -/
private theorem top_lt {x : In} {kmin : Nat} {kmax : ℤ} {top : Nat} (ht : (if kmax < 0 then x.ne else kmax.toNat) = top)
    (h : kmin ≤ top) (dists m : List ℝ) : pointMap x dists kmin kmax m =
      if x.conv then convolved x kmin (top - kmin) (vresize m ((top - kmin) * x.npix) 0)
      else single x kmin (top - kmin) dists (vresize m ((top - kmin) * x.npix) 0) := by
  unfold pointMap
  simp only [ht]
  rw [if_neg (by omega)]

/-- C88.  The map of a point source without corrections holds, for every layer and pixel, the
point-spread function times the solid angle times the exposure, for any range of energies. -/
theorem C88_values (x : In) (dists : List ℝ) (kmin top : Nat) (kmax : ℤ)
    (ht : (if kmax < 0 then x.ne else kmax.toNat) = top) (hk : kmin ≤ top) (hne : top ≤ x.ne)
    (hc : x.conv = true) (hcor : x.correct = false) (he : x.doExp = true → x.ne ≤ x.expo.length)
    (hv : x.verbose = true → 20 ≤ (top - kmin) * x.npix) :
    ∃ m, pointMap x dists kmin kmax [] = .ok m ∧ m.length = (top - kmin) * x.npix ∧
      ∀ k j, k < top - kmin → j < x.npix →
        at' x.npix m k j = some (x.psf (kmin + k) j * x.sol j * (if x.doExp then val x.expo (kmin + k) else 1)) := by
  rw [top_lt ht hk, if_pos hc]
  unfold convolved
  obtain ⟨s, h1, h2, h3, h4⟩ := fill_ok x (holds_zero x.npix (top - kmin)) (kmin := kmin) (by omega)
    (fun h => by have := he h; omega) hv
  rw [h1, Res.bind_ok, hcor]
  refine ⟨s.1, rfl, h3.1, fun k j hk hj => ?_⟩
  rw [holds_at h3 hk hj, zero_add]
  rfl

/-- The hypotheses can be met: the second of three layers of a map with two pixels. -/
example : ∃ (x : In) (kmin top : Nat) (kmax : ℤ), (if kmax < 0 then x.ne else kmax.toNat) = top ∧ kmin ≤ top ∧ top ≤ x.ne ∧
    x.conv = true ∧ x.correct = false ∧ (x.doExp = true → x.ne ≤ x.expo.length) ∧
    (x.verbose = true → 20 ≤ (top - kmin) * x.npix) ∧ 0 < top - kmin ∧ 0 < x.npix :=
  ⟨⟨2, 3, fun _ => 1, fun _ _ => 1, fun _ => 0, 1, fun _ => 1, [1, 2, 3], true, true, false, false⟩, 1, 2, 2,
    by simp, by simp, by simp, rfl, rfl, by simp, by simp, by simp, by simp⟩

/-- C88.  With corrections, and for all energies, the pixels up to `radius` from the source hold
together the integral of the point-spread function times the exposure, whatever the estimates of the
function in the pixels; and the values keep their proportions. -/
theorem C88_corrected (x : In) (dists : List ℝ) (kmax : ℤ) (ht : kmax < 0 ∨ kmax.toNat = x.ne)
    (hc : x.conv = true) (hcor : x.correct = true) (he : x.doExp = true → x.ne ≤ x.expo.length)
    (hv : x.verbose = true → 20 ≤ x.ne * x.npix) :
    ∃ m, pointMap x dists 0 kmax [] = .ok m ∧ m.length = x.ne * x.npix ∧ ∀ k, k < x.ne →
      (near x.npix x.sep x.radius (fun j => x.psf k j * x.sol j) ≠ 0 →
        ∃ v : Nat → ℝ, (∀ j < x.npix, at' x.npix m k j = some (v j)) ∧
          near x.npix x.sep x.radius v = x.integ k * (if x.doExp then val x.expo k else 1) ∧
          ∀ i j, i < x.npix → j < x.npix → v i * (x.psf k j * x.sol j) = v j * (x.psf k i * x.sol i)) ∧
      (near x.npix x.sep x.radius (fun j => x.psf k j * x.sol j) = 0 → ∀ j < x.npix, at' x.npix m k j = some 0) := by
  classical
  have ht' : (if kmax < 0 then x.ne else kmax.toNat) = x.ne := by
    rcases ht with h | h
    · rw [if_pos h]
    · split
      · rfl
      · exact h
  rw [top_lt ht' (Nat.zero_le _), if_pos hc, Nat.sub_zero]
  unfold convolved
  obtain ⟨s, h1, h2, h3, h4⟩ := fill_ok x (holds_zero x.npix x.ne) (kmin := 0) (by omega)
    (fun h => by have := he h; omega) hv
  rw [h1, Res.bind_ok, hcor, if_pos rfl]
  obtain ⟨m, g1, g2⟩ := correct_ok x h3 h2
  refine ⟨m, g1, g2.1, fun k hk => ?_⟩
  have hs : val s.2 k = near x.npix x.sep x.radius (fun j => x.psf k j * x.sol j) := by
    rw [h4 k hk, near_eq, Nat.zero_add]
  constructor
  · intro hn
    refine ⟨_, fun j hj => holds_at g2 hk hj, ?_, ?_⟩
    · have hf : factor (x.integ k) (val s.2 k) = x.integ k / near x.npix x.sep x.radius (fun j => x.psf k j * x.sol j) := by
        unfold factor; rw [hs, if_pos hn]
      rw [hf]
      unfold near at hn ⊢
      simp only [added, zero_add]
      rw [← Finset.sum_mul, ← Finset.sum_mul]
      field_simp
    · intro i j hi hj
      simp only [added, zero_add]
      ring
  · intro hn j hj
    rw [holds_at g2 hk hj]
    unfold factor
    rw [hs, if_neg (by simpa using hn), mul_zero]

/-- The hypotheses can be met: two pixels, one of them far from the source. -/
example : ∃ (x : In) (kmax : ℤ), (kmax < 0 ∨ kmax.toNat = x.ne) ∧ x.conv = true ∧ x.correct = true ∧
    (x.doExp = true → x.ne ≤ x.expo.length) ∧ (x.verbose = true → 20 ≤ x.ne * x.npix) ∧ 0 < x.ne ∧
    near x.npix x.sep x.radius (fun j => x.psf 0 j * x.sol j) ≠ 0 := by
  refine ⟨⟨2, 1, fun _ => 1, fun _ _ => 3, fun j => j, 1 / 2, fun _ => 1, [1], true, true, true, false⟩, -1, Or.inl (by norm_num),
    rfl, rfl, by simp, by simp, by simp, ?_⟩
  rw [near_eq]
  simp [Finset.sum_range_succ, part]
  norm_num

/-- C88 is violated for a part of the energies: with corrections the layers of all energies are
corrected, and those outside the range are not in the map: it is read and written out of bounds. -/
theorem C88_range_violates (x : In) (dists m : List ℝ) (kmin top : Nat) (kmax : ℤ)
    (ht : (if kmax < 0 then x.ne else kmax.toNat) = top) (hk : kmin ≤ top) (hne : top ≤ x.ne)
    (hpart : 0 < kmin ∨ top < x.ne) (hc : x.conv = true) (hcor : x.correct = true)
    (he : x.doExp = true → x.ne ≤ x.expo.length) (hv : x.verbose = true → 20 ≤ (top - kmin) * x.npix)
    (hm : m = []) : pointMap x dists kmin kmax m = .ub := by
  subst hm
  rw [top_lt ht hk, if_pos hc]
  unfold convolved
  obtain ⟨s, h1, h2, h3, h4⟩ := fill_ok x (holds_zero x.npix (top - kmin)) (kmin := kmin) (by omega)
    (fun h => by have := he h; omega) hv
  rw [h1, Res.bind_ok, hcor, if_pos rfl]
  by_cases h0 : 0 < kmin
  · refine MapInt.loop_ub (k := 0) (by omega) (fun i s _ h => absurd h (by omega)) fun w => ?_
    unfold correctLayer
    rw [if_pos (by omega)]
  · obtain rfl : kmin = 0 := by omega
    refine MapInt.loop_ub_inv (fun _ w => ∃ V, Holds x.npix (top - 0) w V) (k := top) (by omega) ⟨_, h3⟩ ?_ ?_
    · rintro i w _ hi ⟨V, hw⟩
      obtain ⟨w', e1, e2⟩ := correctLayer_ok x hw h2 (kk := i) (Nat.zero_le _) (by omega)
      exact ⟨w', e1, _, e2⟩
    · rintro w -
      unfold correctLayer
      rw [if_neg (by omega), vget_ge _ _ (by omega)]
      rfl

/-- The hypotheses can be met: the first of two energies. -/
example : ∃ (x : In) (kmin top : Nat) (kmax : ℤ), (if kmax < 0 then x.ne else kmax.toNat) = top ∧ kmin ≤ top ∧ top ≤ x.ne ∧
    (0 < kmin ∨ top < x.ne) ∧ x.conv = true ∧ x.correct = true ∧
    (x.doExp = true → x.ne ≤ x.expo.length) ∧ (x.verbose = true → 20 ≤ (top - kmin) * x.npix) ∧ 0 < x.npix :=
  ⟨⟨20, 2, fun _ => 1, fun _ _ => 1, fun _ => 0, 1, fun _ => 1, [1, 2], true, true, true, true⟩, 0, 1, 1,
    by simp, by simp, by simp, by simp, rfl, rfl, by simp, by simp, by simp⟩

/-- C88 is violated for small maps: with the progress dots switched on (the default), a map with less
than twenty values divides by zero. -/
theorem C88_small_violates (x : In) (dists m : List ℝ) (kmin top : Nat) (kmax : ℤ)
    (ht : (if kmax < 0 then x.ne else kmax.toNat) = top) (hk : kmin < top) (hp : 0 < x.npix) (hc : x.conv = true)
    (hv : x.verbose = true) (hs : (top - kmin) * x.npix < 20) : pointMap x dists kmin kmax m = .ub := by
  rw [top_lt ht hk.le, if_pos hc]
  unfold convolved
  have : fill x kmin (top - kmin) (vresize m ((top - kmin) * x.npix) 0) = .ub := by
    unfold fill
    refine MapInt.loop_ub (k := 0) hp (fun i s _ h => absurd h (by omega)) fun s => ?_
    refine MapInt.loop_ub (k := 0) (by omega) (fun i s _ h => absurd h (by omega)) fun s => ?_
    unfold step
    split
    · rfl
    · rw [if_pos ⟨hv, by omega⟩]
  rw [this]
  rfl

/-- The hypotheses can be met: a map of 3×3 pixels with two energies. -/
example : ∃ (x : In) (kmin top : Nat) (kmax : ℤ), (if kmax < 0 then x.ne else kmax.toNat) = top ∧ kmin < top ∧ 0 < x.npix ∧
    x.conv = true ∧ x.verbose = true ∧ (top - kmin) * x.npix < 20 :=
  ⟨⟨9, 2, fun _ => 1, fun _ _ => 1, fun _ => 0, 1, fun _ => 1, [1, 2], true, true, true, true⟩, 0, 2, -1,
    by simp, by simp, by simp, rfl, rfl, by simp⟩

/-- C88 is violated when the output already holds a map: the new values are added to the old ones, so
that the second call gives twice the map. -/
theorem C88_again_violates (x : In) (dists : List ℝ) (hc : x.conv = true) (hcor : x.correct = false)
    (he : x.doExp = true → x.ne ≤ x.expo.length) (hv : x.verbose = true → 20 ≤ x.ne * x.npix) :
    ∃ m m', pointMap x dists 0 (-1) [] = .ok m ∧ pointMap x dists 0 (-1) m = .ok m' ∧
      ∀ k j, k < x.ne → j < x.npix → ∀ v, at' x.npix m k j = some v → at' x.npix m' k j = some (2 * v) := by
  have ht : (if (-1 : ℤ) < 0 then x.ne else (-1 : ℤ).toNat) = x.ne := if_pos (by norm_num)
  rw [top_lt ht (Nat.zero_le _), if_pos hc, Nat.sub_zero]
  obtain ⟨s, h1, h2, h3, h4⟩ := fill_ok x (holds_zero x.npix x.ne) (kmin := 0) (by omega)
    (fun h => by have := he h; omega) hv
  obtain ⟨s', g1, g2, g3, g4⟩ := fill_ok x h3 (kmin := 0) (by omega) (fun h => by have := he h; omega) hv
  refine ⟨s.1, s'.1, ?_, ?_, ?_⟩
  · unfold convolved
    rw [h1, Res.bind_ok, hcor]
    rfl
  · rw [top_lt ht (Nat.zero_le _), if_pos hc, Nat.sub_zero]
    have : vresize s.1 (x.ne * x.npix) 0 = s.1 := by unfold vresize; simp [h3.1]
    rw [this]
    unfold convolved
    rw [g1, Res.bind_ok, hcor]
    rfl
  · intro k j hk hj v hv'
    rw [holds_at h3 hk hj] at hv'
    rw [holds_at g3 hk hj, ← Option.some.inj hv']
    congr 1
    ring

/-- The hypotheses can be met, with a value that is not zero. -/
example : ∃ (x : In), x.conv = true ∧ x.correct = false ∧ (x.doExp = true → x.ne ≤ x.expo.length) ∧
    (x.verbose = true → 20 ≤ x.ne * x.npix) ∧ 0 < x.ne ∧ 0 < x.npix ∧ x.psf 0 0 * x.sol 0 ≠ 0 :=
  ⟨⟨20, 2, fun _ => 1, fun _ _ => 1, fun _ => 0, 1, fun _ => 1, [1, 2], true, true, false, true⟩, rfl, rfl,
    by simp, by simp, by simp, by simp, by simp⟩

/-- C88.  Without the point-spread function the counts are in the pixel that is closest to the
source: its value is the exposure, and all other values are zero. -/
theorem C88_single (x : In) (d : ℝ) (ds : List ℝ) (hd : (d :: ds).length = x.npix) (kmin top : Nat) (kmax : ℤ)
    (ht : (if kmax < 0 then x.ne else kmax.toNat) = top) (hk : kmin ≤ top) (hne : top ≤ x.ne) (hc : x.conv = false)
    (he : x.doExp = true → x.ne ≤ x.expo.length) :
    ∃ i r, find (d :: ds) x.sol 2 = .ok r ∧ IsClosest (d :: ds) i ∧ (r = none ∨ r = some i) ∧
      ∃ m, pointMap x (d :: ds) kmin kmax [] = .ok m ∧ m.length = (top - kmin) * x.npix ∧
        ∀ k j, k < top - kmin → j < x.npix → at' x.npix m k j =
          some (if r = some j then (if x.doExp then val x.expo (kmin + k) else 1) else 0) := by
  obtain ⟨c1, c2⟩ := closest_first d ds
  refine ⟨(closest (d :: ds) 0 (d, 0)).2, ?_⟩
  have hi : (closest (d :: ds) 0 (d, 0)).2 < x.npix := by
    rw [← hd]
    exact (List.getElem?_eq_some_iff.1 c2).1
  have hf : find (d :: ds) x.sol 2 = if 1 - x.sol (closest (d :: ds) 0 (d, 0)).2 / 2 / π <
      cos ((closest (d :: ds) 0 (d, 0)).1 / 2) then .ok (some (closest (d :: ds) 0 (d, 0)).2) else .ok none := by
    unfold find
    rw [vget_val (by simp), Res.bind_ok, val_zero_cons]
  have hz := holds_zero x.npix (top - kmin)
  by_cases hcos : 1 - x.sol (closest (d :: ds) 0 (d, 0)).2 / 2 / π < cos ((closest (d :: ds) 0 (d, 0)).1 / 2)
  · rw [if_pos hcos] at hf
    refine ⟨_, hf, c1, Or.inr rfl, ?_⟩
    rw [top_lt ht hk, hc]
    simp only [Bool.false_eq_true, if_false]
    unfold single
    rw [hf, Res.bind_ok]
    simp only
    generalize (closest (d :: ds) 0 (d, 0)).2 = i at *
    obtain ⟨m, g1, g2⟩ := loop_inv (lo := kmin) (n := top - kmin) (s := vresize [] ((top - kmin) * x.npix) (0 : ℝ))
      (body := fun k m => do
        let v ← withExposure x k 1
        vset m ((k - kmin) * x.npix + i) v)
      (fun k w => Holds x.npix (top - kmin) w (fun k' j => if j = i ∧ kmin + k' < k then
        (if x.doExp then val x.expo (kmin + k') else 1) else 0))
      (hz.congr fun k' j _ _ => by simp)
      (by
        intro k w hk1 hk2 hw
        rw [withExposure_ok x (fun h => by have := he h; omega), Res.bind_ok, one_mul]
        obtain ⟨e1, e2⟩ := hw.set (k := k - kmin) (by omega) hi (if x.doExp then val x.expo k else 1)
        refine ⟨_, e1, e2.congr fun k' j' _ _ => ?_⟩
        by_cases hq : k' = k - kmin ∧ j' = i
        · obtain ⟨rfl, rfl⟩ := hq
          have e3 : kmin + (k - kmin) = k := by omega
          simp [e3]
        · simp only [if_neg hq]
          by_cases hj' : j' = i
          · have : k' ≠ k - kmin := fun h => hq ⟨h, hj'⟩
            have e3 : kmin + k' < k + 1 ↔ kmin + k' < k := by omega
            simp only [e3]
          · simp [hj'])
    refine ⟨m, g1, g2.1, fun k j hk hj => ?_⟩
    rw [holds_at g2 hk hj]
    have e1 : kmin + k < kmin + (top - kmin) := by omega
    by_cases hji : j = i
    · subst hji; simp [e1]
    · rw [if_neg (fun h => hji h.1), if_neg (fun h => hji (Option.some.inj h).symm)]
  · rw [if_neg hcos] at hf
    refine ⟨_, hf, c1, Or.inl rfl, ?_⟩
    rw [top_lt ht hk, hc]
    simp only [Bool.false_eq_true, if_false]
    unfold single
    rw [hf, Res.bind_ok]
    refine ⟨_, rfl, hz.1, fun k j hk hj => ?_⟩
    rw [holds_at hz hk hj]
    simp

/-- The hypotheses can be met: the second of two pixels is the closest. -/
example : ∃ (x : In) (d : ℝ) (ds : List ℝ), (d :: ds).length = x.npix ∧ x.conv = false ∧
    (x.doExp = true → x.ne ≤ x.expo.length) ∧ 0 < x.ne ∧ IsClosest (d :: ds) 1 :=
  ⟨⟨2, 2, fun _ => 1, fun _ _ => 1, fun _ => 0, 1, fun _ => 1, [1, 2], false, true, true, true⟩, 2, [1],
    by simp, rfl, by simp, by simp, 1, by simp, by simp⟩

/-- C88 is violated outside the map: a source is accepted up to *twice* the radius of the circle with
the area of the closest pixel, so a source beyond the border is put into the border pixel with its full
exposure. -/
theorem C88_outside_violates (d r : ℝ) (hr : 0 < r) (hr2 : r ≤ π / 2) (hd : 0 ≤ d) (hd2 : d ≤ π) (sol : Nat → ℝ)
    (hs : sol 0 = 2 * π * (1 - cos r)) : (find [d] sol 2 = .ok (some 0) ↔ d < 2 * r) ∧
      (find [d] sol 2 = .ok none ↔ 2 * r ≤ d) := by
  have hpi := pi_pos
  have hc : (1 - sol 0 / 2 / π < cos (d / 2)) ↔ d < 2 * r := by
    have e : 1 - sol 0 / 2 / π = cos r := by rw [hs]; field_simp; ring
    rw [e, strictAntiOn_cos.lt_iff_gt ⟨hr.le, by linarith⟩ ⟨by linarith, by linarith⟩]
    constructor <;> intro h <;> linarith
  have hcl : closest [d] 0 (d, 0) = (d, 0) := by
    simp [closest]
  have hf : find [d] sol 2 = if 1 - sol 0 / 2 / π < cos (d / 2) then .ok (some 0) else .ok none := by
    unfold find
    rw [vget_val (by simp), Res.bind_ok, val_zero_cons, hcl]
  rw [hf]
  by_cases h : d < 2 * r
  · rw [if_pos (hc.2 h)]
    exact ⟨⟨fun _ => h, fun _ => rfl⟩, ⟨fun h' => by simp at h', fun h' => absurd h (not_lt.2 h')⟩⟩
  · rw [if_neg (fun h' => h (hc.1 h'))]
    exact ⟨⟨fun h' => by simp at h', fun h' => absurd h' h⟩, ⟨fun _ => not_lt.1 h, fun _ => rfl⟩⟩

/-- The hypotheses can be met by a position outside the circle that is accepted. -/
example : ∃ d r : ℝ, 0 < r ∧ r ≤ π / 2 ∧ 0 ≤ d ∧ d ≤ π ∧ r < d ∧ d < 2 * r :=
  ⟨3 / 2, 1, by norm_num, by linarith [pi_gt_three], by norm_num, by linarith [pi_gt_three], by norm_num, by norm_num⟩

/-- C88 is violated without an exposure map: the exposures are those of the point-spread function, for
the energies that were extended by the bins for the energy dispersion, and they are used with the
position in the energies of the map.  So layer `k` gets the exposure at the energy `b` bins below. -/
theorem C88_shifted_violates (x : In) (f : ℝ → ℝ) (es : List ℝ) (b : Nat) (hes : 2 ≤ es.length) (hpos : ∀ e ∈ es, 0 < e)
    (hne : x.ne = es.length) (hx : psfExposures f es b = .ok x.expo) (hc : x.conv = true) (hcor : x.correct = false)
    (hd : x.doExp = true) (hv : x.verbose = true → 20 ≤ x.ne * x.npix) (dists : List ℝ) :
    ∃ m, pointMap x dists 0 (-1) [] = .ok m ∧ ∀ k j, k + b < x.ne → j < x.npix →
      at' x.npix m (k + b) j = some (x.psf (k + b) j * x.sol j * f (val es k)) := by
  obtain ⟨out, h1, h2, h3, -⟩ := Energy.expand_ok (b := b) hes hpos
  have hx' : x.expo = out.map f := by
    unfold psfExposures at hx
    rw [h1, Res.bind_ok] at hx
    exact (Res.ok.inj hx).symm
  obtain ⟨m, g1, g2, g3⟩ := C88_values x dists 0 x.ne (-1) (if_pos (by norm_num)) (Nat.zero_le _) le_rfl hc hcor
    (fun _ => by rw [hx', List.length_map, h2]; omega) hv
  refine ⟨m, g1, fun k j hk hj => ?_⟩
  rw [g3 (k + b) j (by omega) hj, Nat.zero_add, hd, if_pos rfl]
  have hlt : k + b < out.length := by omega
  rw [hx', val_map_lt f hlt, show k + b = b + k by omega, h3 k (by omega)]

/-- The hypotheses can be met. -/
example : ∃ (x : In) (es : List ℝ) (f : ℝ → ℝ), 2 ≤ es.length ∧ (∀ e ∈ es, 0 < e) ∧ x.ne = es.length ∧
    psfExposures f es 1 = .ok x.expo ∧ x.conv = true ∧ x.correct = false ∧ x.doExp = true ∧
    (x.verbose = true → 20 ≤ x.ne * x.npix) ∧ f (val es 0) ≠ f (val es 1) := by
  obtain ⟨out, h1, -⟩ := Energy.expand_ok (es := [1, 10]) (b := 1) (by simp) (by simp)
  refine ⟨⟨20, 2, fun _ => 1, fun _ _ => 1, fun _ => 0, 1, fun _ => 1, out.map (fun e => e), true, true, false, true⟩, [1, 10],
    fun e => e, by simp, by simp, rfl, ?_, rfl, rfl, rfl, by simp, by simp [val]⟩
  unfold psfExposures
  rw [h1]
  rfl

/-! ### Healpix -/

/-- C88.  In a healpix map of the whole sky the convolved source has no negative values and sums to
the fraction of the point-spread function, times the exposure. -/
theorem C88_healpix (n cp nPart nPartC : Nat) (nb disc : Nat → Bool) (psfC : Nat → ℝ) (psfP : Nat → Nat → ℝ)
    (fraction e : ℝ) (doExp : Bool) (hf : 0 ≤ fraction) (hcp : cp < n) (hC : 0 < nPartC) (hpos : ∃ i < nPartC, 0 < psfP cp i) :
    let v := normalised n (raw cp nb disc nPart nPartC psfC psfP) fraction
    (∀ i < n, 0 ≤ v i) ∧ (∀ i < n, i ≠ cp → disc i = false → v i = 0) ∧
      (hpxLayer n (fun i => i) v doExp e).sum = fraction * (if doExp then e else 1) := by
  intro v
  have hmean : ∀ m p, 0 ≤ partMean m p := fun m p =>
    div_nonneg (Finset.sum_nonneg fun i _ => le_max_right _ _) (Nat.cast_nonneg _)
  have hraw : ∀ i, 0 ≤ raw cp nb disc nPart nPartC psfC psfP i := by
    intro i
    unfold raw
    split
    · exact hmean _ _
    · split
      · exact hmean _ _
      · split
        · exact le_max_right _ _
        · exact le_rfl
  have hcpos : 0 < raw cp nb disc nPart nPartC psfC psfP cp := by
    unfold raw
    rw [if_pos rfl]
    unfold partMean
    refine div_pos ?_ (by exact_mod_cast hC)
    obtain ⟨i, hi, hp⟩ := hpos
    exact Finset.sum_pos' (fun i _ => le_max_right _ _) ⟨i, Finset.mem_range.2 hi, lt_max_of_lt_left hp⟩
  have hsum : 0 < ∑ p ∈ Finset.range n, raw cp nb disc nPart nPartC psfC psfP p :=
    Finset.sum_pos' (fun i _ => hraw i) ⟨cp, Finset.mem_range.2 hcp, hcpos⟩
  have hn : (0 : ℝ) < n := by exact_mod_cast (by omega : 0 < n)
  have hvs : ∀ i, v i = raw cp nb disc nPart nPartC psfC psfP i *
      (fraction / ∑ p ∈ Finset.range n, raw cp nb disc nPart nPartC psfC psfP p) := by
    intro i
    show normalised _ _ _ _ = _
    unfold normalised
    field_simp
  refine ⟨fun i _ => ?_, fun i _ hi hd => ?_, ?_⟩
  · rw [hvs]
    exact mul_nonneg (hraw i) (div_nonneg hf hsum.le)
  · rw [hvs]
    unfold raw
    simp [hi, hd]
  · have h1 : ∑ i ∈ Finset.range n, v i = fraction := by
      simp only [hvs]
      rw [← Finset.sum_mul]
      field_simp
    unfold hpxLayer
    have hl : ((List.range n).map fun i => if doExp then v i * e else v i).sum =
        ∑ i ∈ Finset.range n, v i * (if doExp then e else 1) := by
      rw [← listSum_range]
      congr 1
      cases doExp <;> simp
    rw [hl, ← Finset.sum_mul, h1]

/-- The hypotheses can be met. -/
example : ∃ (n cp nPartC : Nat) (psfP : Nat → Nat → ℝ), cp < n ∧ 0 < nPartC ∧ ∃ i < nPartC, 0 < psfP cp i :=
  ⟨12, 3, 4, fun _ _ => 1, by norm_num, by norm_num, 0, by norm_num, by norm_num⟩

/-- C88.  The layer for a part of the sky holds, at every local pixel, the value that the layer for
the whole sky holds at the pixel's position in the sky, and so never more counts than the whole
sky. -/
theorem C88_healpix_region (n nPix : Nat) (glo : Nat → Nat) (hglo : ∀ i < nPix, glo i < n)
    (hinj : ∀ i < nPix, ∀ j < nPix, glo i = glo j → i = j) (v : Nat → ℝ) (hv : ∀ i < n, 0 ≤ v i) (doExp : Bool) (e : ℝ)
    (he : 0 ≤ e) :
    (hpxLayer nPix glo v doExp e).length = nPix ∧
      (∀ i < nPix, val (hpxLayer nPix glo v doExp e) i = val (hpxLayer n (fun p => p) v doExp e) (glo i)) ∧
      (hpxLayer nPix glo v doExp e).sum ≤ (hpxLayer n (fun p => p) v doExp e).sum := by
  refine ⟨by simp [hpxLayer], fun i hi => ?_, ?_⟩
  · unfold hpxLayer
    rw [val_map_range _ hi, val_map_range _ (hglo i hi)]
  · unfold hpxLayer
    rw [listSum_range, listSum_range]
    have hg : ∀ i, i < n → 0 ≤ (if doExp = true then v i * e else v i) := fun i hi => by
      split
      · exact mul_nonneg (hv i hi) he
      · exact hv i hi
    rw [← Finset.sum_image (s := Finset.range nPix) (g := glo) (f := fun i => if doExp = true then v i * e else v i)
      (fun i hi j hj h => hinj i (by simpa using hi) j (by simpa using hj) h)]
    refine Finset.sum_le_sum_of_subset_of_nonneg (fun p hp => ?_) (fun i hi _ => hg i (Finset.mem_range.1 hi))
    obtain ⟨i, hi, rfl⟩ := Finset.mem_image.1 hp
    exact Finset.mem_range.2 (hglo i (Finset.mem_range.1 hi))

/-- The hypotheses can be met: two pixels of twelve. -/
example : ∃ (n nPix : Nat) (glo : Nat → Nat) (v : Nat → ℝ), (∀ i < nPix, glo i < n) ∧
    (∀ i < nPix, ∀ j < nPix, glo i = glo j → i = j) ∧ (∀ i < n, 0 ≤ v i) ∧ 0 < nPix ∧ v (glo 0) ≠ v 0 :=
  ⟨12, 2, fun i => i + 5, fun i => i, fun i hi => by simp only; omega, fun i _ j _ h => by simpa using h,
    fun i _ => Nat.cast_nonneg i, by omega, by norm_num⟩

/-- C88 is violated for healpix maps without the point-spread function: the pixel of the source holds
the solid angle of the pixel times the exposure, so the counts differ from those of the map in a
projection (the exposure) by the factor of the solid angle. -/
theorem C88_healpix_single_violates (solidAngle e : ℝ) (he : e ≠ 0) (doExp : Bool) :
    hpxSingle solidAngle doExp e = solidAngle * (if doExp then e else 1) ∧
      (hpxSingle solidAngle doExp e = (if doExp then e else 1) ↔ solidAngle = 1) := by
  have h : hpxSingle solidAngle doExp e = solidAngle * (if doExp then e else 1) := by
    unfold hpxSingle
    cases doExp <;> simp
  refine ⟨h, ?_⟩
  rw [h]
  have hne : (if doExp then e else 1 : ℝ) ≠ 0 := by cases doExp <;> simp [he]
  constructor
  · intro hh
    exact mul_right_cancel₀ hne (by rw [hh, one_mul])
  · rintro rfl
    rw [one_mul]

end Verif.PsfMap
