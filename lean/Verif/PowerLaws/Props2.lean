import Verif.PowerLaws.Props
set_option linter.unusedSimpArgs false
set_option linter.unusedVariables false
set_option linter.unnecessarySeqFocus false
/-
C50, C51, C52 for `BrokenPowerLaw2`: normalisation, `integral`, continuity, derivatives.
-/
namespace Verif.PowerLaws
open Verif.Spectra

theorem bpl2_value (p : Pars) (x : ℝ) : BPL2.value p x = bpl (BPL2.N0 p) (p 3).tv (p 1).tv (p 2).tv x := by
  simp only [BPL2.value, bpl, neg_neg]

/-- The normalising integral over the limits, for a unit value at the break. -/
noncomputable def G2 (a b x0 x1 x2 : ℝ) : ℝ :=
  if x0 < x1 then x0 * (((x2 / x0) ^ b - (x1 / x0) ^ b) / b)
  else if x2 < x0 then x0 * (((x2 / x0) ^ a - (x1 / x0) ^ a) / a)
  else x0 * ((1 - (x1 / x0) ^ a) / a + ((x2 / x0) ^ b - 1) / b)

theorem G2_prim {x0 x1 x2 I1 I2 : ℝ} (N : ℝ) (h12 : x1 < x2) :
    prim N x0 I1 I2 x2 - prim N x0 I1 I2 x1 = N * G2 (1 + I1) (1 + I2) x0 x1 x2 := by
  unfold prim G2
  by_cases h1 : x0 < x1
  · have h2 : ¬ x2 < x0 := not_lt.mpr (h1.trans h12).le
    rw [if_neg h2, if_neg (not_lt.mpr h1.le), if_pos h1]; ring
  · by_cases h2 : x2 < x0
    · have h3 : x1 < x0 := h12.trans h2
      rw [if_pos h2, if_pos h3, if_neg h1, if_pos h2]; ring
    · rw [if_neg h2, if_neg h1, if_neg h2]
      rcases lt_or_eq_of_le (not_lt.mp h1) with h3 | h3
      · rw [if_pos h3]; ring
      · subst h3
        rw [if_neg (lt_irrefl _)]
        by_cases h0 : x1 = 0
        · subst h0; simp
        · rw [div_self h0, Real.one_rpow, Real.one_rpow]; ring

theorem G2_pos {x0 x1 x2 I1 I2 : ℝ} (h0 : 0 < x0) (h1 : 0 < x1) (h12 : x1 < x2) (ha : 1 + I1 ≠ 0) (hb : 1 + I2 ≠ 0) :
    0 < G2 (1 + I1) (1 + I2) x0 x1 x2 := by
  have h := G2_prim (x0 := x0) (I1 := I1) (I2 := I2) 1 h12
  rw [one_mul] at h
  rw [← h, ← bpl_integral h0 h1 (h1.trans h12) ha hb]
  refine intervalIntegral.intervalIntegral_pos_of_pos_on ?_ (fun y hy => ?_) h12
  · refine ContinuousOn.intervalIntegrable fun t ht => ?_
    exact (bpl_continuousAt h0 (pos_of_uIcc h1 (h1.trans h12) ht)).continuousWithinAt
  · have hy' : 0 < y / x0 := div_pos (h1.trans hy.1) h0
    unfold bpl
    split <;> (rw [one_mul]; exact Real.rpow_pos_of_pos hy' _)

theorem N0_eq (p : Pars) :
    BPL2.N0 p = (p 0).tv / G2 (1 + (p 1).tv) (1 + (p 2).tv) (p 3).tv (p 4).tv (p 5).tv := by
  simp only [BPL2.N0, G2, sub_neg_eq_add]
  split
  · rw [div_div, ← mul_div_assoc, div_div_eq_mul_div]
  · split
    · rw [div_div, ← mul_div_assoc, div_div_eq_mul_div]
    · rw [div_div]

/-- Between its limits it integrates to its Integral parameter. -/
theorem C52_bpl2_normalised {p : Pars} (h0 : 0 < (p 3).tv) (h1 : 0 < (p 4).tv) (h12 : (p 4).tv < (p 5).tv)
    (ha : (p 1).tv ≠ -1) (hb : (p 2).tv ≠ -1) : ∫ x in (p 4).tv..(p 5).tv, BPL2.value p x = (p 0).tv := by
  have ha' : 1 + (p 1).tv ≠ 0 := fun h => ha (by linarith)
  have hb' : 1 + (p 2).tv ≠ 0 := fun h => hb (by linarith)
  simp only [bpl2_value]
  rw [bpl_integral h0 h1 (h1.trans h12) ha' hb', G2_prim _ h12, N0_eq p]
  have := (G2_pos h0 h1 h12 ha' hb').ne'
  field_simp

example : ∫ x in (100:ℝ)..10000, BPL2.value (fun i => ⟨[3, -1.5, -2.5, 1000, 100, 10000].getD i 0, 1⟩) x = 3 := by
  have := C52_bpl2_normalised (p := fun i => ⟨[3, -1.5, -2.5, 1000, 100, 10000].getD i 0, 1⟩) (by norm_num [P.tv])
    (by norm_num [P.tv]) (by norm_num [P.tv]) (by norm_num [P.tv]) (by norm_num [P.tv])
  simpa [P.tv] using this

/-- The body of both `integral` methods. -/
theorem integral_body {N x0 I1 I2 : ℝ} {a b : ℝ} (hne : min a b ≠ x0) :
    x0 * ((if b < a then (-1 : ℝ) else 1) *
      (if (if b < a then b else a) < x0 ∧ x0 ≤ (if b < a then a else b) then
        N * ((1 - ((if b < a then b else a) / x0) ^ (1 + I1)) / (1 + I1) +
          (((if b < a then a else b) / x0) ^ (1 + I2) - 1) / (1 + I2))
      else if x0 < (if b < a then b else a) then
        N * (((if b < a then a else b) / x0) ^ (1 + I2) - ((if b < a then b else a) / x0) ^ (1 + I2)) / (1 + I2)
      else N * (((if b < a then a else b) / x0) ^ (1 + I1) - ((if b < a then b else a) / x0) ^ (1 + I1)) / (1 + I1))) =
    prim N x0 I1 I2 b - prim N x0 I1 I2 a := by
  have core : ∀ u v : ℝ, u ≤ v → u ≠ x0 → x0 * (if u < x0 ∧ x0 ≤ v then
        N * ((1 - (u / x0) ^ (1 + I1)) / (1 + I1) + ((v / x0) ^ (1 + I2) - 1) / (1 + I2))
      else if x0 < u then N * ((v / x0) ^ (1 + I2) - (u / x0) ^ (1 + I2)) / (1 + I2)
      else N * ((v / x0) ^ (1 + I1) - (u / x0) ^ (1 + I1)) / (1 + I1)) = prim N x0 I1 I2 v - prim N x0 I1 I2 u := by
    intro u v huv hu
    unfold prim
    by_cases h1 : u < x0 ∧ x0 ≤ v
    · rw [if_pos h1, if_neg (not_lt.mpr h1.2), if_pos h1.1]; ring
    · rw [if_neg h1]
      by_cases h2 : x0 < u
      · rw [if_pos h2, if_neg (not_lt.mpr (h2.le.trans huv)), if_neg (not_lt.mpr h2.le)]; ring
      · rw [if_neg h2]
        by_cases h3 : u < x0
        · have h4 : v < x0 := by
            by_contra h; exact h1 ⟨h3, not_lt.mp h⟩
          rw [if_pos h4, if_pos h3]; ring
        · exact absurd (le_antisymm (not_lt.mp h2) (not_lt.mp h3)) hu
  by_cases hab : b < a
  · simp only [if_pos hab]
    have := core b a hab.le (by rwa [min_eq_right hab.le] at hne)
    linear_combination -this
  · simp only [if_neg hab]
    have := core a b (not_lt.mp hab) (by rwa [min_eq_left (not_lt.mp hab)] at hne)
    linear_combination this

/-- What `integral` returns is the integral divided by the break energy, for a lower end
other than the break. -/
theorem C52_bpl2_integral_violates {p : Pars} (h0 : 0 < (p 3).tv) (ha : (p 1).tv ≠ -1) (hb : (p 2).tv ≠ -1) {a b : ℝ}
    (hpa : 0 < a) (hpb : 0 < b) (hne : min a b ≠ (p 3).tv) :
    BPL2.integral p a b = (∫ x in a..b, BPL2.value p x) / (p 3).tv := by
  have ha' : 1 + (p 1).tv ≠ 0 := fun h => ha (by linarith)
  have hb' : 1 + (p 2).tv ≠ 0 := fun h => hb (by linarith)
  simp only [bpl2_value]
  rw [bpl_integral h0 hpa hpb ha' hb', ← integral_body hne]
  simp only [BPL2.integral, sub_neg_eq_add]
  field_simp

example : BPL2.integral (fun i => ⟨[3, -1.5, -2.5, 1000, 100, 10000].getD i 0, 1⟩) 100 10000 = 3 / 1000 ∧
    ∫ x in (100:ℝ)..10000, BPL2.value (fun i => ⟨[3, -1.5, -2.5, 1000, 100, 10000].getD i 0, 1⟩) x = 3 := by
  have h := C52_bpl2_normalised (p := fun i => ⟨[3, -1.5, -2.5, 1000, 100, 10000].getD i 0, 1⟩) (by norm_num [P.tv])
    (by norm_num [P.tv]) (by norm_num [P.tv]) (by norm_num [P.tv]) (by norm_num [P.tv])
  have h2 := C52_bpl2_integral_violates (p := fun i => ⟨[3, -1.5, -2.5, 1000, 100, 10000].getD i 0, 1⟩)
    (by norm_num [P.tv]) (by norm_num [P.tv]) (by norm_num [P.tv]) (a := 100) (b := 10000) (by norm_num) (by norm_num)
    (by norm_num [P.tv])
  have h' : ∫ x in (100:ℝ)..10000, BPL2.value (fun i => ⟨[3, -1.5, -2.5, 1000, 100, 10000].getD i 0, 1⟩) x = 3 := by
    simpa [P.tv] using h
  refine ⟨?_, h'⟩
  rw [h2, h']
  norm_num [P.tv]

/-- With its lower end exactly at the break the integral is computed with the index that
applies below the break. -/
theorem C52_bpl2_break_violates {p : Pars} (h0 : 0 < (p 3).tv) (ha : (p 1).tv ≠ -1) (hb : (p 2).tv ≠ -1) {b : ℝ}
    (hb0 : (p 3).tv < b) :
    BPL2.integral p (p 3).tv b * (p 3).tv = ∫ x in (p 3).tv..b, BPL2.N0 p * (x / (p 3).tv) ^ (p 1).tv := by
  have ha' : 1 + (p 1).tv ≠ 0 := fun h => ha (by linarith)
  have e : ∀ t ∈ Set.uIcc (p 3).tv b, HasDerivAt (fun x => BPL2.N0 p * (p 3).tv *
      (((x / (p 3).tv) ^ (1 + (p 1).tv) - 1) / (1 + (p 1).tv))) (BPL2.N0 p * (t / (p 3).tv) ^ (p 1).tv) t :=
    fun t ht => prim_branch _ h0 (pos_of_uIcc h0 (h0.trans hb0) ht) ha'
  rw [intervalIntegral.integral_eq_sub_of_hasDerivAt e]
  · simp only [BPL2.integral, if_neg (not_lt.mpr hb0.le), lt_irrefl, false_and, if_false, sub_neg_eq_add,
      div_self h0.ne', Real.one_rpow]
    ring
  · refine ContinuousOn.intervalIntegrable fun t ht => ?_
    have hp := div_pos (pos_of_uIcc h0 (h0.trans hb0) ht) h0
    exact ((powc (p 1).tv ((idd t).div_const (p 3).tv) hp).const_mul (BPL2.N0 p)).continuousAt.continuousWithinAt

example : BPL2.integral (fun i => ⟨[3, -1.5, -2.5, 1000, 100, 10000].getD i 0, 1⟩) 1000 5000 * 1000 =
    ∫ x in (1000:ℝ)..5000, BPL2.N0 (fun i => ⟨[3, -1.5, -2.5, 1000, 100, 10000].getD i 0, 1⟩) * (x / 1000) ^ (-1.5 : ℝ) := by
  have := C52_bpl2_break_violates (p := fun i => ⟨[3, -1.5, -2.5, 1000, 100, 10000].getD i 0, 1⟩) (by norm_num [P.tv])
    (by norm_num [P.tv]) (by norm_num [P.tv]) (b := 5000) (by norm_num [P.tv])
  simpa [P.tv] using this

/-- The spectrum is continuous. -/
theorem C51_bpl2 {p : Pars} (h0 : 0 < (p 3).tv) {x : ℝ} (hx : 0 < x) : ContinuousAt (BPL2.value p) x := by
  have : BPL2.value p = bpl (BPL2.N0 p) (p 3).tv (p 1).tv (p 2).tv := funext (bpl2_value p)
  rw [this]
  exact bpl_continuousAt h0 hx

example : ContinuousAt (BPL2.value (fun i => ⟨[3, -1.5, -2.5, 1000, 100, 10000].getD i 0, 1⟩)) 1000 :=
  C51_bpl2 (by norm_num [P.tv]) (by norm_num)

end Verif.PowerLaws
