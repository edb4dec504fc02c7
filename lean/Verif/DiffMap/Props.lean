import Verif.DiffMap.Lemmas
import Mathlib.Tactic.NormNum
set_option linter.unusedSectionVars false
set_option linter.unusedSimpArgs false
set_option linter.unusedVariables false
/-
C90: the map of a diffuse source in a projection.
-/
namespace Verif.DiffMap
open Verif Verif.Vec Real Spec

/-! ### The finer map -/

/-- C90.  For a spatial function the finer map divides every pixel of the counts map into `r` equal
parts. -/
theorem C90_axis_function (n r : Nat) (crpix : ℝ) (hr : 0 < r) :
    let a := axisFunction n crpix r
    a.lo + r * n + a.hi = a.naxis ∧ ∀ p t, p < n → t < r → position a r (a.lo + (r * p + t)) = partPos crpix p r t := by
  intro a
  have hr' : (r : ℝ) ≠ 0 := by positivity
  refine ⟨?_, fun p t _ _ => ?_⟩
  · show 0 + r * n + 0 = n * r
    rw [Nat.mul_comm n r]; omega
  · show (((0 + (r * p + t) : Nat) : ℝ) + 1 - (r * (crpix - 1 / 2) + 1 / 2)) / r = _
    unfold partPos
    push_cast
    field_simp
    ring

/-- The hypotheses can be met. -/
example : (0 : Nat) < 2 := by norm_num

private theorem halfDiff_ok {m nr : Nat} (h : nr ≤ m) : halfDiff m nr = .ok ((m - nr) / 2) := by
  unfold halfDiff; rw [if_neg (by omega)]

/-- C90.  For a map made by gtbin (reference pixel in the centre) whose number of parts is even, or
without resampling, the finer map divides every pixel into `r` equal parts too, and is symmetric
around the counts map. -/
theorem C90_axis_conforming_partial (n r mapsize : Nat) (resample : Bool) (hr : 0 < r) (hm : mapsize % 2 = 0) (hle : n * r ≤ mapsize)
    (h : (resample = true ∧ n * r % 2 = 0) ∨ (resample = false ∧ r = 1)) :
    ∃ a, axisConforming n r mapsize resample = .ok a ∧ a.lo + r * n + a.hi = a.naxis ∧
      ∀ p t, p < n → t < r → position a r (a.lo + (r * p + t)) = partPos ((n + 1) / 2) p r t := by
  have hr' : (r : ℝ) ≠ 0 := by positivity
  unfold axisConforming
  rw [halfDiff_ok hle, Res.bind_ok]
  simp only
  have hnr : n * r = r * n := Nat.mul_comm _ _
  rcases h with ⟨hres, heven⟩ | ⟨hres, rfl⟩
  · subst hres
    have htest : ¬ (((mapsize - (mapsize - n * r) / 2 - (mapsize - n * r) / 2 : Nat) : ℤ) - n * r ≠ 0) := by
      have : mapsize - (mapsize - n * r) / 2 - (mapsize - n * r) / 2 = n * r := by omega
      rw [this]; push_cast; simp
    rw [if_neg (by simp), if_neg (fun h => htest h.2)]
    refine ⟨_, rfl, by simp only; omega, fun p t _ _ => ?_⟩
    obtain ⟨q, hq⟩ : ∃ q, mapsize = n * r + 2 * q := ⟨(mapsize - n * r) / 2, by omega⟩
    have e : (mapsize - n * r) / 2 = q := by omega
    have hq' : (mapsize : ℝ) = n * r + 2 * q := by exact_mod_cast hq
    unfold position partPos
    simp only [e, hq']
    push_cast
    field_simp
    ring
  · subst hres
    rw [Nat.mul_one] at *
    rcases Nat.mod_two_eq_zero_or_one n with hn | hn
    · rw [if_neg (by omega), if_neg (by simp)]
      refine ⟨_, rfl, by simp only; omega, fun p t _ ht => ?_⟩
      obtain rfl : t = 0 := by omega
      obtain ⟨q, hq⟩ : ∃ q, mapsize = n + 2 * q := ⟨(mapsize - n) / 2, by omega⟩
      have e : (mapsize - n) / 2 = q := by omega
      have hq' := congrArg (fun z : Nat => (z : ℝ)) hq
      unfold position partPos
      simp only [e, hq']
      push_cast
      ring
    · rw [if_pos ⟨by simp, hn⟩, if_neg (by simp)]
      refine ⟨_, rfl, by simp only; omega, fun p t _ ht => ?_⟩
      obtain rfl : t = 0 := by omega
      obtain ⟨q, hq⟩ : ∃ q, mapsize = n + 1 + 2 * q := ⟨(mapsize - n) / 2, by omega⟩
      have e : (mapsize - n) / 2 = q := by omega
      have hq' := congrArg (fun z : Nat => (z : ℝ)) hq
      unfold position partPos
      simp only [e, hq']
      push_cast
      ring

/-- The hypotheses can be met: 100 pixels, factor two; and 101 pixels without resampling. -/
example : (0 < 2 ∧ 240 % 2 = 0 ∧ 100 * 2 ≤ 240 ∧ 100 * 2 % 2 = 0) ∧ (120 % 2 = 0 ∧ 101 * 1 ≤ 120) := by norm_num

/-- C90 is violated for an odd number of pixels and an odd resampling factor: the finer map is shifted
against the counts map by half a part, `1/(2r)` of a pixel. -/
theorem C90_axis_odd_violates (n r mapsize : Nat) (hr : 0 < r) (hm : mapsize % 2 = 0) (hle : n * r ≤ mapsize) (hodd : n * r % 2 = 1) :
    ∃ a, axisConforming n r mapsize true = .ok a ∧ a.lo + r * n + a.hi = a.naxis ∧
      ∀ p t, p < n → t < r → position a r (a.lo + (r * p + t)) = partPos ((n + 1) / 2) p r t + 1 / (2 * r) := by
  have hr' : (r : ℝ) ≠ 0 := by positivity
  unfold axisConforming
  rw [halfDiff_ok hle, Res.bind_ok]
  simp only
  have hnr : n * r = r * n := Nat.mul_comm _ _
  have htest : ((mapsize - (mapsize - n * r) / 2 - (mapsize - n * r) / 2 : Nat) : ℤ) - n * r ≠ 0 := by
    have : mapsize - (mapsize - n * r) / 2 - (mapsize - n * r) / 2 = n * r + 1 := by omega
    rw [this]; push_cast; intro h; linarith
  rw [if_neg (by simp), if_pos ⟨trivial, htest⟩]
  refine ⟨_, rfl, by simp only; omega, fun p t _ _ => ?_⟩
  obtain ⟨q, hq⟩ : ∃ q, mapsize = n * r + 1 + 2 * q := ⟨(mapsize - n * r) / 2, by omega⟩
  have e : (mapsize - n * r) / 2 = q := by omega
  have hq' := congrArg (fun z : Nat => (z : ℝ)) hq
  unfold position partPos
  simp only [e, hq']
  push_cast
  field_simp
  ring

/-- The hypotheses can be met: 101 pixels and the factor one. -/
example : 0 < 1 ∧ 120 % 2 = 0 ∧ 101 * 1 ≤ 120 ∧ 101 * 1 % 2 = 1 := by norm_num

/-- C90 is violated for a reference pixel that is not quite in the centre: the test of the geometry
compares truncated numbers, so that a map whose reference pixel is up to half a pixel beyond the centre
passes, and is treated as centred: its parts are shifted by that amount. -/
theorem C90_conforms_violates (n r mapsize : Nat) (crpix : ℝ) (hc1 : ((n : ℝ) + 1) / 2 ≤ crpix) (hc2 : crpix < ((n : ℝ) + 2) / 2)
    (hr : 0 < r) (hm : mapsize % 2 = 0) (hle : n * r ≤ mapsize) (heven : n * r % 2 = 0) :
    conforms n crpix = true ∧ ∃ a, axisConforming n r mapsize true = .ok a ∧
      ∀ p t, p < n → t < r → position a r (a.lo + (r * p + t)) = partPos crpix p r t + (crpix - (n + 1) / 2) := by
  constructor
  · unfold conforms Wcs.trunc
    have h0 : (0 : ℝ) ≤ n := Nat.cast_nonneg _
    rw [if_pos (by linarith), decide_eq_true_iff, Int.floor_eq_iff]
    push_cast
    constructor <;> linarith
  · obtain ⟨a, h1, -, h2⟩ := C90_axis_conforming_partial n r mapsize true hr hm hle (Or.inl ⟨rfl, heven⟩)
    refine ⟨a, h1, fun p t hp ht => ?_⟩
    rw [h2 p t hp ht]
    unfold partPos
    ring

/-- The hypotheses can be met. -/
example : (((100 : Nat) : ℝ) + 1) / 2 ≤ 50.75 ∧ (50.75 : ℝ) < (((100 : Nat) : ℝ) + 2) / 2 := by norm_num

/-- C90 is violated for other maps: the parts are shifted by `(r-1)/(2r)` of a pixel, and when the
number of parts is even the last one is left out. -/
theorem C90_axis_other_violates (n r : Nat) (crpix : ℝ) (hr : 0 < r) (hn : 0 < n) :
    let a := axisOther n crpix r
    (∀ p t, p < n → t < r → position a r (a.lo + (r * p + t)) = partPos crpix p r t - (r - 1) / (2 * r)) ∧
      a.lo = 0 ∧ (n * r % 2 = 1 → a.naxis - a.hi = r * n) ∧ (n * r % 2 = 0 → a.naxis - a.hi = r * n - 1) := by
  intro a
  have hr' : (r : ℝ) ≠ 0 := by positivity
  have hnr : n * r = r * n := Nat.mul_comm _ _
  refine ⟨fun p t _ _ => ?_, rfl, fun h => ?_, fun h => ?_⟩
  · show (((0 + (r * p + t) : Nat) : ℝ) + 1 - crpix * r) / r = _
    unfold partPos
    push_cast
    field_simp
    ring
  · show (if n * r % 2 = 1 then n * r + 1 else n * r) - 1 = r * n
    rw [if_pos h]; omega
  · show (if n * r % 2 = 1 then n * r + 1 else n * r) - 1 = r * n - 1
    rw [if_neg (by omega)]; omega

/-- The hypotheses can be met. -/
example : (0 : Nat) < 2 ∧ 0 < 100 := by norm_num

/-! ### The values -/

/-- C90.  When the finer map divides every pixel into `r × r` parts, each value is the mean over the
parts of its own pixel times the solid angle. -/
theorem C90_values (x : In) (hr : 0 < x.r) (h1 : x.a1.lo + x.r * x.n1 + x.a1.hi = x.a1.naxis)
    (h2 : x.a2.lo + x.r * x.n2 + x.a2.hi = x.a2.naxis) (hv : x.verbose = true → 20 ≤ x.ne * (x.n1 * x.n2)) :
    ∃ m, diffuse x 0 (-1) [] = .ok m ∧ m.length = x.ne * (x.n1 * x.n2) ∧ ∀ k q p, k < x.ne → q < x.n2 → p < x.n1 →
      at3 x.n1 x.n2 m k q p = some (x.sol (q * x.n1 + p) *
        mean x.r (fun s t => x.img k (x.a2.lo + (x.r * q + s)) (x.a1.lo + (x.r * p + t)))) := by
  obtain ⟨m, g1, g2, g3⟩ := diffuse_ok x ⟨hr, by omega, by omega⟩ hv rfl
  refine ⟨m, g1, g2, fun k q p hk hq hp => ?_⟩
  rw [g3 k q p hk hq hp, received_full x k q p hq hp (by omega) (by omega)]

/-- The hypotheses can be met. -/
example : ∃ x : In, 0 < x.r ∧ x.a1.lo + x.r * x.n1 + x.a1.hi = x.a1.naxis ∧ x.a2.lo + x.r * x.n2 + x.a2.hi = x.a2.naxis ∧
    (x.verbose = true → 20 ≤ x.ne * (x.n1 * x.n2)) ∧ 0 < x.ne ∧ 0 < x.n1 ∧ 0 < x.n2 :=
  ⟨⟨5, 4, 2, 2, ⟨14, 0, 2, 2⟩, ⟨12, 0, 2, 2⟩, fun _ => 1, fun _ _ _ => 1, true⟩, by simp, by simp, by simp, by simp, by simp, by simp,
    by simp⟩

/-- C90.  A constant brightness gives the brightness times the solid angle in every pixel. -/
theorem C90_constant (x : In) (c : ℝ) (hr : 0 < x.r) (h1 : x.a1.lo + x.r * x.n1 + x.a1.hi = x.a1.naxis)
    (h2 : x.a2.lo + x.r * x.n2 + x.a2.hi = x.a2.naxis) (hv : x.verbose = true → 20 ≤ x.ne * (x.n1 * x.n2))
    (hc : ∀ k j i, x.img k j i = c) :
    ∃ m, diffuse x 0 (-1) [] = .ok m ∧ ∀ k q p, k < x.ne → q < x.n2 → p < x.n1 →
      at3 x.n1 x.n2 m k q p = some (c * x.sol (q * x.n1 + p)) := by
  obtain ⟨m, g1, -, g3⟩ := C90_values x hr h1 h2 hv
  refine ⟨m, g1, fun k q p hk hq hp => ?_⟩
  rw [g3 k q p hk hq hp]
  congr 1
  unfold mean
  simp only [hc, Finset.sum_const, Finset.card_range, nsmul_eq_mul]
  have : (x.r : ℝ) ≠ 0 := by positivity
  field_simp

/-- The hypotheses can be met. -/
example : ∃ x : In, 0 < x.r ∧ x.a1.lo + x.r * x.n1 + x.a1.hi = x.a1.naxis ∧ x.a2.lo + x.r * x.n2 + x.a2.hi = x.a2.naxis ∧
    (x.verbose = true → 20 ≤ x.ne * (x.n1 * x.n2)) ∧ ∀ k j i, x.img k j i = 3 :=
  ⟨⟨5, 4, 2, 2, ⟨14, 0, 2, 2⟩, ⟨12, 0, 2, 2⟩, fun _ => 1, fun _ _ _ => 3, true⟩, by simp, by simp, by simp, by simp, by simp⟩

/-- C90 is violated for maps not made by gtbin with an even number of columns and the factor one: the
last column is empty. -/
theorem C90_last_column_violates (x : In) (crpix1 crpix2 : ℝ) (hr : x.r = 1) (hn1 : 0 < x.n1) (heven : x.n1 % 2 = 0)
    (ha1 : x.a1 = axisOther x.n1 crpix1 1) (ha2 : x.a2 = axisOther x.n2 crpix2 1)
    (hv : x.verbose = true → 20 ≤ x.ne * (x.n1 * x.n2)) :
    ∃ m, diffuse x 0 (-1) [] = .ok m ∧ ∀ k q, k < x.ne → q < x.n2 → at3 x.n1 x.n2 m k q (x.n1 - 1) = some 0 := by
  have e1 : x.a1.naxis - x.a1.hi - x.a1.lo = x.n1 - 1 := by
    rw [ha1]
    show (if x.n1 * 1 % 2 = 1 then x.n1 * 1 + 1 else x.n1 * 1) - 1 - 0 = x.n1 - 1
    rw [if_neg (by omega)]; omega
  have e2 : x.a2.naxis - x.a2.hi - x.a2.lo ≤ x.n2 := by
    rw [ha2]
    show (if x.n2 * 1 % 2 = 1 then x.n2 * 1 + 1 else x.n2 * 1) - 1 - 0 ≤ x.n2
    split <;> omega
  obtain ⟨m, g1, g2, g3⟩ := diffuse_ok x ⟨by omega, by rw [e1, hr]; omega, by rw [hr]; omega⟩ hv rfl
  refine ⟨m, g1, fun k q hk hq => ?_⟩
  rw [g3 k q _ hk hq (by omega)]
  congr 1
  unfold received
  refine Finset.sum_eq_zero fun s _ => ?_
  split
  · refine Finset.sum_eq_zero fun t ht => ?_
    rw [if_neg]
    rw [e1, hr]
    omega
  · rfl

/-- The hypotheses can be met. -/
example : ∃ x : In, x.r = 1 ∧ 0 < x.n1 ∧ x.n1 % 2 = 0 ∧ x.a1 = axisOther x.n1 7 1 ∧ x.a2 = axisOther x.n2 9 1 ∧
    (x.verbose = true → 20 ≤ x.ne * (x.n1 * x.n2)) ∧ 0 < x.ne ∧ 0 < x.n2 :=
  ⟨⟨6, 4, 2, 1, axisOther 6 7 1, axisOther 4 9 1, fun _ => 1, fun _ _ _ => 1, true⟩, rfl, by simp, by simp, rfl, rfl, by simp, by simp,
    by simp⟩

/-- C90 is violated for a part of the energies: the loop runs over all of them and writes outside of
the map. -/
theorem C90_range_violates (x : In) (kmin top : Nat) (kmax : ℤ) (ht : (if kmax < 0 then x.ne else kmax.toNat) = top)
    (hk : kmin ≤ top) (hne : top ≤ x.ne) (hpart : 0 < kmin ∨ top < x.ne) (hr : 0 < x.r)
    (h1 : x.a1.lo + x.r * x.n1 + x.a1.hi = x.a1.naxis) (h2 : x.a2.lo + x.r * x.n2 + x.a2.hi = x.a2.naxis)
    (hn1 : 0 < x.n1) (hn2 : 0 < x.n2) (hv : x.verbose = true → 20 ≤ (top - kmin) * (x.n1 * x.n2)) :
    diffuse x kmin kmax [] = .ub := by
  have hfit : Fits x := ⟨hr, by omega, by omega⟩
  have hpos1 : 0 < x.r * x.n1 := Nat.mul_pos hr hn1
  have hpos2 : 0 < x.r * x.n2 := Nat.mul_pos hr hn2
  unfold diffuse
  simp only [ht]
  rw [if_neg (by omega)]
  have hbad : ∀ k (w : List ℝ), k < kmin ∨ (kmin ≤ k ∧ w.length ≤ (k - kmin) * (x.n1 * x.n2)) →
      layer x ((top - kmin) * (x.n1 * x.n2)) kmin k w = .ub := by
    intro k w hkw
    unfold layer
    refine MapInt.loop_ub_inv (fun _ u => u = w) (k := 0) (by omega) rfl (fun i s _ h => absurd h (by omega)) ?_
    rintro s hs
    refine MapInt.loop_ub_inv (fun _ u => u = w) (k := 0) (by omega) hs (fun i s _ h => absurd h (by omega)) ?_
    rintro u hu
    unfold addPix
    rw [if_neg (by omega)]
    have hz : ¬ ((x.a1.lo + 0) % x.r = 0 ∧ (x.a2.lo + 0) % x.r = 0 ∧ x.verbose ∧ (top - kmin) * (x.n1 * x.n2) / 20 = 0) := by
      rintro ⟨-, -, hh, h0⟩
      have := hv hh
      omega
    rw [if_neg hz]
    simp only [Nat.add_zero, Nat.sub_self, Nat.zero_div, Nat.zero_mul]
    rw [if_neg (by have := Nat.mul_pos hn1 hn2; omega)]
    rcases hkw with h | ⟨h, h'⟩
    · rw [if_pos h]
    · rw [if_neg (by omega), vget_ge _ _ (by rw [hu]; exact h')]
      rfl
  by_cases h0 : 0 < kmin
  · exact MapInt.loop_ub (k := 0) (by omega) (fun i s _ h => absurd h (by omega)) fun w => hbad _ w (Or.inl (by omega))
  · obtain rfl : kmin = 0 := by omega
    refine MapInt.loop_ub_inv (fun _ w => w.length = (top - 0) * (x.n1 * x.n2)) (k := top) (by omega) (by simp) ?_ ?_
    · intro k w _ hk' hw
      obtain ⟨w', f1, f2, -⟩ := layer_ok x hfit hv (Nat.zero_le k) (nb := top - 0) (by omega) hw
      exact ⟨w', f1, f2⟩
    · intro w hw
      exact hbad _ w (Or.inr ⟨Nat.zero_le _, by rw [hw, Nat.zero_add]⟩)

/-- The hypotheses can be met: the second of two energies. -/
example : ∃ (x : In) (kmin top : Nat) (kmax : ℤ), (if kmax < 0 then x.ne else kmax.toNat) = top ∧ kmin ≤ top ∧ top ≤ x.ne ∧
    (0 < kmin ∨ top < x.ne) ∧ 0 < x.r ∧ x.a1.lo + x.r * x.n1 + x.a1.hi = x.a1.naxis ∧ x.a2.lo + x.r * x.n2 + x.a2.hi = x.a2.naxis ∧
    0 < x.n1 ∧ 0 < x.n2 ∧ (x.verbose = true → 20 ≤ (top - kmin) * (x.n1 * x.n2)) :=
  ⟨⟨5, 4, 2, 2, ⟨14, 0, 2, 2⟩, ⟨12, 0, 2, 2⟩, fun _ => 1, fun _ _ _ => 1, true⟩, 1, 2, -1, by simp, by simp, by simp, by simp, by simp,
    by simp, by simp, by simp, by simp, by simp⟩

/-- C90 is violated for small maps with progress output: less than twenty values divide by zero. -/
theorem C90_small_violates (x : In) (hv : x.verbose = true) (hne : 0 < x.ne) (hs : x.ne * (x.n1 * x.n2) < 20) (hr : 0 < x.r)
    (hn1 : 0 < x.a1.naxis - x.a1.hi - x.a1.lo) (hn2 : 0 < x.a2.naxis - x.a2.hi - x.a2.lo)
    (hl1 : x.a1.lo % x.r = 0) (hl2 : x.a2.lo % x.r = 0) : diffuse x 0 (-1) [] = .ub := by
  unfold diffuse
  simp only [show ((-1 : ℤ) < 0) = True by simp, if_true, Nat.not_lt_zero, if_false, Nat.sub_zero]
  refine MapInt.loop_ub (k := 0) hne (fun i s _ h => absurd h (by omega)) fun w => ?_
  unfold layer
  refine MapInt.loop_ub (k := 0) hn2 (fun i s _ h => absurd h (by omega)) fun w => ?_
  refine MapInt.loop_ub (k := 0) hn1 (fun i s _ h => absurd h (by omega)) fun w => ?_
  unfold addPix
  rw [if_neg (by omega), if_pos ⟨hl1, hl2, hv, by omega⟩]

/-- The hypotheses can be met: a map of 3×3 pixels. -/
example : ∃ x : In, x.verbose = true ∧ 0 < x.ne ∧ x.ne * (x.n1 * x.n2) < 20 ∧ 0 < x.r ∧ 0 < x.a1.naxis - x.a1.hi - x.a1.lo ∧
    0 < x.a2.naxis - x.a2.hi - x.a2.lo ∧ x.a1.lo % x.r = 0 ∧ x.a2.lo % x.r = 0 :=
  ⟨⟨3, 3, 2, 2, axisFunction 3 2 2, axisFunction 3 2 2, fun _ => 1, fun _ _ _ => 1, true⟩, rfl, by simp, by simp, by simp,
    by simp [axisFunction], by simp [axisFunction], by simp [axisFunction], by simp [axisFunction]⟩

end Verif.DiffMap
