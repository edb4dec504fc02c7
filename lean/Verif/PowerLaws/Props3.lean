import Verif.PowerLaws.Props2
set_option linter.unusedSimpArgs false
set_option linter.unusedVariables false
set_option linter.unnecessarySeqFocus false
/-
C50 for `BrokenPowerLaw2`: derivatives.
-/
namespace Verif.PowerLaws
open Verif.Spectra

theorem bpl2_value' (q : Pars) (x : ℝ) : BPL2.value q x = bpl ((q 0).tv / G2 (1 + (q 1).tv) (1 + (q 2).tv) (q 3).tv
    (q 4).tv (q 5).tv) (q 3).tv (q 1).tv (q 2).tv x := by
  rw [bpl2_value, N0_eq]

theorem bpl_lt {N x0 I1 I2 x : ℝ} (h : x < x0) : bpl N x0 I1 I2 x = N * (x / x0) ^ I1 := if_pos h
theorem bpl_ge {N x0 I1 I2 x : ℝ} (h : ¬ x < x0) : bpl N x0 I1 I2 x = N * (x / x0) ^ I2 := if_neg h

theorem G2_lo {a b x0 x1 x2 : ℝ} (h : x0 < x1) : G2 a b x0 x1 x2 = x0 * (((x2 / x0) ^ b - (x1 / x0) ^ b) / b) := if_pos h
theorem G2_hi {a b x0 x1 x2 : ℝ} (h : ¬ x0 < x1) (h2 : x2 < x0) :
    G2 a b x0 x1 x2 = x0 * (((x2 / x0) ^ a - (x1 / x0) ^ a) / a) := by rw [G2, if_neg h, if_pos h2]
theorem G2_mid {a b x0 x1 x2 : ℝ} (h : ¬ x0 < x1) (h2 : ¬ x2 < x0) :
    G2 a b x0 x1 x2 = x0 * ((1 - (x1 / x0) ^ a) / a + ((x2 / x0) ^ b - 1) / b) := by rw [G2, if_neg h, if_neg h2]

/-- The derivative of the normalising integral with respect to the break. -/
noncomputable def dG2 (a b x0 x1 x2 : ℝ) : ℝ :=
  if x2 < x0 then (1 / a - 1) * ((x2 / x0) ^ a - (x1 / x0) ^ a)
  else if x0 < x1 then (1 / b - 1) * ((x2 / x0) ^ b - (x1 / x0) ^ b)
  else (1 - (x1 / x0) ^ a) / a + ((x2 / x0) ^ b - 1) / b + (x1 / x0) ^ a - (x2 / x0) ^ b

theorem G2_break {a b x0 x1 x2 : ℝ} (h0 : 0 < x0) (h1 : 0 < x1) (h12 : x1 < x2) (ha : a ≠ 0) (hb : b ≠ 0) :
    HasDerivAt (fun t => G2 a b t x1 x2) (dG2 a b x0 x1 x2) x0 := by
  have h2 : 0 < x2 := h1.trans h12
  have p1 := div_pos h1 h0
  have p2 := div_pos h2 h0
  have d1 := cdiv x1 (idd x0) h0.ne'
  have d2 := cdiv x2 (idd x0) h0.ne'
  have hlo : HasDerivAt (fun t => t * (((x2 / t) ^ b - (x1 / t) ^ b) / b))
      ((1 / b - 1) * ((x2 / x0) ^ b - (x1 / x0) ^ b)) x0 := by
    refine ((idd x0).fun_mul (((powc b d2 p2).fun_sub (powc b d1 p1)).div_const b)).congr_deriv ?_
    field_simp; ring
  have hhi : HasDerivAt (fun t => t * (((x2 / t) ^ a - (x1 / t) ^ a) / a))
      ((1 / a - 1) * ((x2 / x0) ^ a - (x1 / x0) ^ a)) x0 := by
    refine ((idd x0).fun_mul (((powc a d2 p2).fun_sub (powc a d1 p1)).div_const a)).congr_deriv ?_
    field_simp; ring
  have hmid : HasDerivAt (fun t => t * ((1 - (x1 / t) ^ a) / a + ((x2 / t) ^ b - 1) / b))
      ((1 - (x1 / x0) ^ a) / a + ((x2 / x0) ^ b - 1) / b + (x1 / x0) ^ a - (x2 / x0) ^ b) x0 := by
    refine ((idd x0).fun_mul ((((powc a d1 p1).const_sub 1).div_const a).fun_add
      (((powc b d2 p2).sub_const 1).div_const b))).congr_deriv ?_
    field_simp; ring
  refine piece (idd x0).continuousAt (hasDerivAt_const x0 x1).continuousAt (fun t => rfl) ?_ ?_ ?_
  · intro h
    have h3 : ¬ x2 < x0 := not_lt.mpr (h.trans h12.le)
    refine hlo.congr_deriv ?_
    rw [dG2, if_neg h3]
    split
    · rfl
    · have : x0 = x1 := le_antisymm h (not_lt.mp ‹_›)
      subst this
      rw [div_self h0.ne', Real.one_rpow, Real.one_rpow]; ring
  · intro h
    refine piece (hasDerivAt_const x0 x2).continuousAt (idd x0).continuousAt (fun t => rfl) ?_ ?_ ?_
    · intro h3
      refine hhi.congr_deriv ?_
      rw [dG2]
      split
      · rfl
      · have : x0 = x2 := le_antisymm (not_lt.mp ‹_›) h3
        subst this
        rw [if_neg (not_lt.mpr h), div_self h0.ne', Real.one_rpow, Real.one_rpow]; ring
    · intro h3
      refine hmid.congr_deriv ?_
      rw [dG2, if_neg (not_lt.mpr h3), if_neg (not_lt.mpr h)]
    · intro h3
      rw [h3, div_self h0.ne', Real.one_rpow, Real.one_rpow]; ring
  · intro h
    have h3 : ¬ x2 < x0 := not_lt.mpr (h.le.trans h12.le)
    rw [if_neg h3, h, div_self h1.ne', Real.one_rpow, Real.one_rpow]; ring

/-- The derivatives of the broken power law with an integral as normalisation, except with
respect to an index that does not enter the normalisation at an energy where it enters
the shape. -/
theorem C50_bpl2_partial {p : Pars} {x : ℝ} (hx : 0 < x) (hN : (p 0).tv ≠ 0) (h0 : 0 < (p 3).tv) (h1 : 0 < (p 4).tv)
    (h12 : (p 4).tv < (p 5).tv) (ha : (p 1).tv ≠ -1) (hb : (p 2).tv ≠ -1) {i : Nat} (hi : i < 4)
    (hi1 : i = 1 → (p 3).tv < (p 4).tv → (p 3).tv ≤ x) (hi2 : i = 2 → (p 5).tv < (p 3).tv → x ≤ (p 3).tv)
    (hi3 : i = 3 → x ≠ (p 3).tv) :
    ∃ d, BPL2.deriv p i x = .ok d ∧ Partial (fun q => BPL2.value q x) p i d := by
  have ha' : 1 + (p 1).tv ≠ 0 := fun h => ha (by linarith)
  have hb' : 1 + (p 2).tv ≠ 0 := fun h => hb (by linarith)
  have hG := (G2_pos h0 h1 h12 ha' hb').ne'
  have hp := div_pos hx h0
  have h2 := h1.trans h12
  have p1 := div_pos h1 h0
  have p2 := div_pos h2 h0
  have hm : ∀ a b c : ℝ, c ≠ 0 → -(a / b) * (a / b) * c / a / c / c * 0 = 0 := by intros; ring
  obtain rfl | rfl | rfl | rfl : i = 0 ∨ i = 1 ∨ i = 2 ∨ i = 3 := by omega
  · have hd : (if (p 3).tv < (p 4).tv then (1 + (p 2).tv) / (p 3).tv / (((p 5).tv / (p 3).tv) ^ (1 + (p 2).tv) -
        ((p 4).tv / (p 3).tv) ^ (1 + (p 2).tv))
      else if (p 5).tv < (p 3).tv then (1 + (p 1).tv) / (p 3).tv / (((p 5).tv / (p 3).tv) ^ (1 + (p 1).tv) -
        ((p 4).tv / (p 3).tv) ^ (1 + (p 1).tv))
      else 1 / (p 3).tv / ((1 - ((p 4).tv / (p 3).tv) ^ (1 + (p 1).tv)) / (1 + (p 1).tv) +
        (((p 5).tv / (p 3).tv) ^ (1 + (p 2).tv) - 1) / (1 + (p 2).tv))) =
        1 / G2 (1 + (p 1).tv) (1 + (p 2).tv) (p 3).tv (p 4).tv (p 5).tv := by
      unfold G2
      split
      · rw [div_div, ← mul_div_assoc, div_div_eq_mul_div, one_mul]
      · split
        · rw [div_div, ← mul_div_assoc, div_div_eq_mul_div, one_mul]
        · rw [div_div]
    simp only [BPL2.deriv, sub_neg_eq_add, hd, neg_neg]
    by_cases hlt : x < (p 3).tv
    · refine ⟨_, if_pos hlt, partial_of (g := fun a => a / G2 (1 + (p 1).tv) (1 + (p 2).tv) (p 3).tv (p 4).tv (p 5).tv *
        (x / (p 3).tv) ^ (p 1).tv) (fun t => (bpl2_value' _ x).trans (bpl_lt hlt))
        (((idd _).div_const _).mul_const _) rfl⟩
    · refine ⟨_, if_neg hlt, partial_of (g := fun a => a / G2 (1 + (p 1).tv) (1 + (p 2).tv) (p 3).tv (p 4).tv (p 5).tv *
        (x / (p 3).tv) ^ (p 2).tv) (fun t => (bpl2_value' _ x).trans (bpl_ge hlt))
        (((idd _).div_const _).mul_const _) rfl⟩
  · by_cases hlo : (p 3).tv < (p 4).tv
    · have hlt : ¬ x < (p 3).tv := not_lt.mpr (hi1 rfl hlo)
      refine ⟨_, if_pos hlo, partial_zero' ((p 0).tv / ((p 3).tv * ((((p 5).tv / (p 3).tv) ^ (1 + (p 2).tv) -
        ((p 4).tv / (p 3).tv) ^ (1 + (p 2).tv)) / (1 + (p 2).tv))) * (x / (p 3).tv) ^ (p 2).tv)
        (Filter.Eventually.of_forall fun t => ((bpl2_value' (setv p 1 t) x).trans (bpl_ge hlt)).trans ?_)⟩
      exact congrArg (fun z => (p 0).tv / z * (x / (p 3).tv) ^ (p 2).tv) (G2_lo hlo)
    · have hdG : ∃ d, HasDerivAt (fun a => G2 (1 + a) (1 + (p 2).tv) (p 3).tv (p 4).tv (p 5).tv) d (p 1).tv ∧
          (if (p 5).tv < (p 3).tv then (p 0).tv / (p 3).tv / (((p 5).tv / (p 3).tv) ^ (1 + (p 1).tv) -
              ((p 4).tv / (p 3).tv) ^ (1 + (p 1).tv)) / (((p 5).tv / (p 3).tv) ^ (1 + (p 1).tv) -
              ((p 4).tv / (p 3).tv) ^ (1 + (p 1).tv)) * (((p 5).tv / (p 3).tv) ^ (1 + (p 1).tv) -
              ((p 4).tv / (p 3).tv) ^ (1 + (p 1).tv) - (1 + (p 1).tv) * (((p 5).tv / (p 3).tv) ^ (1 + (p 1).tv) *
              Real.log ((p 5).tv / (p 3).tv) - ((p 4).tv / (p 3).tv) ^ (1 + (p 1).tv) * Real.log ((p 4).tv / (p 3).tv)))
            else -BPL2.N0 p * BPL2.N0 p * (p 3).tv / (p 0).tv / (1 + (p 1).tv) / (1 + (p 1).tv) *
              (((p 4).tv / (p 3).tv) ^ (1 + (p 1).tv) * (1 - (1 + (p 1).tv) * Real.log ((p 4).tv / (p 3).tv)) - 1)) =
          -((p 0).tv / G2 (1 + (p 1).tv) (1 + (p 2).tv) (p 3).tv (p 4).tv (p 5).tv) *
            (d / G2 (1 + (p 1).tv) (1 + (p 2).tv) (p 3).tv (p 4).tv (p 5).tv) := by
        have hs := (idd (p 1).tv).const_add 1
        by_cases hhi : (p 5).tv < (p 3).tv
        · have hden : ((p 5).tv / (p 3).tv) ^ (1 + (p 1).tv) - ((p 4).tv / (p 3).tv) ^ (1 + (p 1).tv) ≠ 0 :=
            sub_pow_ne p1 (by gcongr) ha'
          refine ⟨_, near ((((cpow p2 hs).fun_sub (cpow p1 hs)).fun_div hs ha').const_mul (p 3).tv)
            (Filter.Eventually.of_forall fun a => G2_hi hlo hhi), ?_⟩
          rw [if_pos hhi, G2_hi hlo hhi]
          generalize ((p 5).tv / (p 3).tv) ^ (1 + (p 1).tv) = A2 at *
          generalize ((p 4).tv / (p 3).tv) ^ (1 + (p 1).tv) = A1 at *
          field_simp
          ring
        · refine ⟨_, near (((((cpow p1 hs).const_sub 1).fun_div hs ha').add_const _).const_mul (p 3).tv)
            (Filter.Eventually.of_forall fun a => G2_mid hlo hhi), ?_⟩
          rw [if_neg hhi, N0_eq]
          generalize G2 (1 + (p 1).tv) (1 + (p 2).tv) (p 3).tv (p 4).tv (p 5).tv = G at *
          field_simp
          ring
      obtain ⟨d, hd, hN0⟩ := hdG
      simp only [BPL2.deriv, if_neg hlo, sub_neg_eq_add, hN0, neg_neg]
      by_cases hlt : x < (p 3).tv
      · refine ⟨_, if_pos hlt, partial_of (g := fun a => (p 0).tv / G2 (1 + a) (1 + (p 2).tv) (p 3).tv (p 4).tv (p 5).tv *
          (x / (p 3).tv) ^ a) (fun t => (bpl2_value' _ x).trans (bpl_lt hlt))
          ((cdiv _ hd hG).fun_mul (cpow hp (idd _))) ?_⟩
        rw [N0_eq]; ring
      · refine ⟨_, if_neg hlt, partial_of (g := fun a => (p 0).tv / G2 (1 + a) (1 + (p 2).tv) (p 3).tv (p 4).tv (p 5).tv *
          (x / (p 3).tv) ^ (p 2).tv) (fun t => (bpl2_value' _ x).trans (bpl_ge hlt))
          ((cdiv _ hd hG).mul_const _) rfl⟩
  · by_cases hhi : (p 5).tv < (p 3).tv
    · have hlo : ¬ (p 3).tv < (p 4).tv := not_lt.mpr (h12.trans hhi).le
      have hle : x ≤ (p 3).tv := hi2 rfl hhi
      refine ⟨_, if_pos hhi, partial_zero' ((p 0).tv / ((p 3).tv * ((((p 5).tv / (p 3).tv) ^ (1 + (p 1).tv) -
        ((p 4).tv / (p 3).tv) ^ (1 + (p 1).tv)) / (1 + (p 1).tv))) * (x / (p 3).tv) ^ (p 1).tv)
        (Filter.Eventually.of_forall fun t => (bpl2_value' _ x).trans ?_)⟩
      rw [← G2_hi (a := 1 + (p 1).tv) (b := 1 + (setv p 2 t 2).tv) hlo hhi]
      rcases lt_or_eq_of_le hle with hlt | heq
      · exact bpl_lt hlt
      · refine (bpl_ge (not_lt.mpr heq.ge)).trans ?_
        have : (setv p 2 t 3).tv = (p 3).tv := rfl
        rw [this, heq, div_self h0.ne', Real.one_rpow, Real.one_rpow]
        rfl
    · have hdG : ∃ d, HasDerivAt (fun b => G2 (1 + (p 1).tv) (1 + b) (p 3).tv (p 4).tv (p 5).tv) d (p 2).tv ∧
          (if (p 3).tv < (p 4).tv then (p 0).tv / (p 3).tv / (((p 5).tv / (p 3).tv) ^ (1 + (p 2).tv) -
              ((p 4).tv / (p 3).tv) ^ (1 + (p 2).tv)) / (((p 5).tv / (p 3).tv) ^ (1 + (p 2).tv) -
              ((p 4).tv / (p 3).tv) ^ (1 + (p 2).tv)) * (((p 5).tv / (p 3).tv) ^ (1 + (p 2).tv) -
              ((p 4).tv / (p 3).tv) ^ (1 + (p 2).tv) - (1 + (p 2).tv) * (((p 5).tv / (p 3).tv) ^ (1 + (p 2).tv) *
              Real.log ((p 5).tv / (p 3).tv) - ((p 4).tv / (p 3).tv) ^ (1 + (p 2).tv) * Real.log ((p 4).tv / (p 3).tv)))
            else BPL2.N0 p * BPL2.N0 p * (p 3).tv / (p 0).tv / (1 + (p 2).tv) / (1 + (p 2).tv) *
              (((p 5).tv / (p 3).tv) ^ (1 + (p 2).tv) * (1 - (1 + (p 2).tv) * Real.log ((p 5).tv / (p 3).tv)) - 1)) =
          -((p 0).tv / G2 (1 + (p 1).tv) (1 + (p 2).tv) (p 3).tv (p 4).tv (p 5).tv) *
            (d / G2 (1 + (p 1).tv) (1 + (p 2).tv) (p 3).tv (p 4).tv (p 5).tv) := by
        have hs := (idd (p 2).tv).const_add 1
        by_cases hlo : (p 3).tv < (p 4).tv
        · have hden : ((p 5).tv / (p 3).tv) ^ (1 + (p 2).tv) - ((p 4).tv / (p 3).tv) ^ (1 + (p 2).tv) ≠ 0 :=
            sub_pow_ne p1 (by gcongr) hb'
          refine ⟨_, near ((((cpow p2 hs).fun_sub (cpow p1 hs)).fun_div hs hb').const_mul (p 3).tv)
            (Filter.Eventually.of_forall fun a => G2_lo hlo), ?_⟩
          rw [if_pos hlo, G2_lo hlo]
          generalize ((p 5).tv / (p 3).tv) ^ (1 + (p 2).tv) = A2 at *
          generalize ((p 4).tv / (p 3).tv) ^ (1 + (p 2).tv) = A1 at *
          field_simp
          ring
        · refine ⟨_, near (((((cpow p2 hs).sub_const 1).fun_div hs hb').const_add _).const_mul (p 3).tv)
            (Filter.Eventually.of_forall fun a => G2_mid hlo hhi), ?_⟩
          rw [if_neg hlo, N0_eq]
          generalize G2 (1 + (p 1).tv) (1 + (p 2).tv) (p 3).tv (p 4).tv (p 5).tv = G at *
          field_simp
          ring
      obtain ⟨d, hd, hN0⟩ := hdG
      simp only [BPL2.deriv, if_neg hhi, sub_neg_eq_add, hN0, neg_neg]
      by_cases hgt : (p 3).tv < x
      · refine ⟨_, if_pos hgt, partial_of (g := fun b => (p 0).tv / G2 (1 + (p 1).tv) (1 + b) (p 3).tv (p 4).tv (p 5).tv *
          (x / (p 3).tv) ^ b) (fun t => (bpl2_value' _ x).trans (bpl_ge (not_lt.mpr hgt.le)))
          ((cdiv _ hd hG).fun_mul (cpow hp (idd _))) ?_⟩
        rw [N0_eq]; ring
      · refine ⟨_, if_neg hgt, partial_of (g := fun b => (p 0).tv / G2 (1 + (p 1).tv) (1 + b) (p 3).tv (p 4).tv (p 5).tv *
          (x / (p 3).tv) ^ (p 1).tv) (fun t => (bpl2_value' _ x).trans ?_)
          ((cdiv _ hd hG).mul_const _) rfl⟩
        rcases lt_or_eq_of_le (not_lt.mp hgt) with hlt | heq
        · exact bpl_lt hlt
        · refine (bpl_ge (not_lt.mpr heq.ge)).trans ?_
          have : (setv p 2 t 3).tv = (p 3).tv := rfl
          rw [this, heq, div_self h0.ne', Real.one_rpow, Real.one_rpow]
          rfl
  · have hd := G2_break (x1 := (p 4).tv) (x2 := (p 5).tv) h0 h1 h12 ha' hb'
    have hN0 : (if (p 5).tv < (p 3).tv then -BPL2.N0 p * BPL2.N0 p / (p 0).tv * (1 / (1 + (p 1).tv) - 1) *
          (((p 5).tv / (p 3).tv) ^ (1 + (p 1).tv) - ((p 4).tv / (p 3).tv) ^ (1 + (p 1).tv))
        else if (p 3).tv < (p 4).tv then -BPL2.N0 p * BPL2.N0 p / (p 0).tv * (1 / (1 + (p 2).tv) - 1) *
          (((p 5).tv / (p 3).tv) ^ (1 + (p 2).tv) - ((p 4).tv / (p 3).tv) ^ (1 + (p 2).tv))
        else -BPL2.N0 p * BPL2.N0 p / (p 0).tv * ((1 - ((p 4).tv / (p 3).tv) ^ (1 + (p 1).tv)) / (1 + (p 1).tv) +
          (((p 5).tv / (p 3).tv) ^ (1 + (p 2).tv) - 1) / (1 + (p 2).tv) + ((p 4).tv / (p 3).tv) ^ (1 + (p 1).tv) -
          ((p 5).tv / (p 3).tv) ^ (1 + (p 2).tv))) =
        -((p 0).tv / G2 (1 + (p 1).tv) (1 + (p 2).tv) (p 3).tv (p 4).tv (p 5).tv) *
          (dG2 (1 + (p 1).tv) (1 + (p 2).tv) (p 3).tv (p 4).tv (p 5).tv /
            G2 (1 + (p 1).tv) (1 + (p 2).tv) (p 3).tv (p 4).tv (p 5).tv) := by
      rw [N0_eq]
      generalize G2 (1 + (p 1).tv) (1 + (p 2).tv) (p 3).tv (p 4).tv (p 5).tv = G at *
      unfold dG2
      split
      · field_simp
      · split
        · field_simp
        · field_simp
    simp only [BPL2.deriv, sub_neg_eq_add, hN0, neg_neg]
    have d1 := cdiv x (idd (p 3).tv) h0.ne'
    rcases lt_or_gt_of_ne (hi3 rfl) with hlt | hlt
    · refine ⟨_, if_pos hlt, partial_ev (g := fun t => (p 0).tv / G2 (1 + (p 1).tv) (1 + (p 2).tv) t (p 4).tv (p 5).tv *
        (x / t) ^ (p 1).tv) ?_ ((cdiv _ hd hG).fun_mul (powc _ d1 hp)) ?_⟩
      · filter_upwards [ev_lt (hasDerivAt_const _ x) (idd (p 3).tv) hlt] with a hlt' t ht
        subst ht
        exact (bpl2_value' _ x).trans (bpl_lt hlt')
      · rw [N0_eq]; field_simp
    · refine ⟨_, if_neg hlt.not_gt, partial_ev (g := fun t => (p 0).tv / G2 (1 + (p 1).tv) (1 + (p 2).tv) t (p 4).tv
        (p 5).tv * (x / t) ^ (p 2).tv) ?_ ((cdiv _ hd hG).fun_mul (powc _ d1 hp)) ?_⟩
      · filter_upwards [ev_lt (idd (p 3).tv) (hasDerivAt_const _ x) hlt] with a hlt' t ht
        subst ht
        exact (bpl2_value' _ x).trans (bpl_ge hlt'.not_gt)
      · rw [N0_eq]; field_simp

example : ∃ d, BPL2.deriv (fun i => ⟨[3, -1.5, -2.5, 1000, 100, 10000].getD i 0, 1⟩) 3 500 = .ok d ∧
    Partial (fun q => BPL2.value q 500) (fun i => ⟨[3, -1.5, -2.5, 1000, 100, 10000].getD i 0, 1⟩) 3 d :=
  C50_bpl2_partial (by norm_num) (by norm_num [P.tv]) (by norm_num [P.tv]) (by norm_num [P.tv]) (by norm_num [P.tv])
    (by norm_num [P.tv]) (by norm_num [P.tv]) (by norm_num) (by norm_num) (by norm_num) (by norm_num [P.tv])

/-- With the break below the limits the derivative with respect to the first index is
reported as zero at every energy; below the break it is not. -/
theorem C50_bpl2_index1_violates {p : Pars} {x : ℝ} (hx : 0 < x) (hN : (p 0).tv ≠ 0) (hs : (p 1).scale ≠ 0)
    (h12 : (p 4).tv < (p 5).tv) (hb : (p 2).tv ≠ -1) (h0 : 0 < (p 3).tv) (hlo : (p 3).tv < (p 4).tv)
    (hlt : x < (p 3).tv) :
    BPL2.deriv p 1 x = .ok 0 ∧ ∃ d, d ≠ 0 ∧ Partial (fun q => BPL2.value q x) p 1 d := by
  have hb' : 1 + (p 2).tv ≠ 0 := fun h => hb (by linarith)
  have hp := div_pos hx h0
  have hden : ((p 5).tv / (p 3).tv) ^ (1 + (p 2).tv) - ((p 4).tv / (p 3).tv) ^ (1 + (p 2).tv) ≠ 0 :=
    sub_pow_ne (div_pos (h0.trans hlo) h0) (by gcongr) hb'
  refine ⟨if_pos hlo, _, ?_, partial_of (g := fun a => (p 0).tv / ((p 3).tv * ((((p 5).tv / (p 3).tv) ^ (1 + (p 2).tv) -
    ((p 4).tv / (p 3).tv) ^ (1 + (p 2).tv)) / (1 + (p 2).tv))) * (x / (p 3).tv) ^ a)
    (fun t => ((bpl2_value' (setv p 1 t) x).trans (bpl_lt hlt)).trans ?_) ((cpow hp (idd _)).const_mul _) rfl⟩
  · refine mul_ne_zero (mul_ne_zero (div_ne_zero hN (mul_ne_zero h0.ne' (div_ne_zero hden hb')))
      (mul_ne_zero (Real.rpow_pos_of_pos hp _).ne' (mul_ne_zero one_ne_zero ?_))) hs
    refine Real.log_ne_zero_of_pos_of_ne_one hp ?_
    rw [ne_eq, div_eq_one_iff_eq h0.ne']
    exact hlt.ne
  · exact congrArg (fun z => (p 0).tv / z * (x / (p 3).tv) ^ (t * (p 1).scale)) (G2_lo hlo)

example : BPL2.deriv (fun i => ⟨[3, -1.5, -2.5, 1000, 2000, 10000].getD i 0, 1⟩) 1 500 = .ok 0 ∧ ∃ d, d ≠ 0 ∧
    Partial (fun q => BPL2.value q 500) (fun i => ⟨[3, -1.5, -2.5, 1000, 2000, 10000].getD i 0, 1⟩) 1 d :=
  C50_bpl2_index1_violates (by norm_num) (by norm_num [P.tv]) (by norm_num) (by norm_num [P.tv]) (by norm_num [P.tv])
    (by norm_num [P.tv]) (by norm_num [P.tv]) (by norm_num [P.tv])

/-- With the break above the limits the derivative with respect to the second index is
reported as zero at every energy; above the break it is not. -/
theorem C50_bpl2_index2_violates {p : Pars} {x : ℝ} (hN : (p 0).tv ≠ 0) (hs : (p 2).scale ≠ 0)
    (h1 : 0 < (p 4).tv) (h12 : (p 4).tv < (p 5).tv) (ha : (p 1).tv ≠ -1) (hhi : (p 5).tv < (p 3).tv)
    (hgt : (p 3).tv < x) :
    BPL2.deriv p 2 x = .ok 0 ∧ ∃ d, d ≠ 0 ∧ Partial (fun q => BPL2.value q x) p 2 d := by
  have ha' : 1 + (p 1).tv ≠ 0 := fun h => ha (by linarith)
  have h0 : 0 < (p 3).tv := h1.trans (h12.trans hhi)
  have hlo : ¬ (p 3).tv < (p 4).tv := (h12.trans hhi).not_gt
  have hp := div_pos (h0.trans hgt) h0
  have hden : ((p 5).tv / (p 3).tv) ^ (1 + (p 1).tv) - ((p 4).tv / (p 3).tv) ^ (1 + (p 1).tv) ≠ 0 :=
    sub_pow_ne (div_pos h1 h0) (by gcongr) ha'
  refine ⟨if_pos hhi, _, ?_, partial_of (g := fun a => (p 0).tv / ((p 3).tv * ((((p 5).tv / (p 3).tv) ^ (1 + (p 1).tv) -
    ((p 4).tv / (p 3).tv) ^ (1 + (p 1).tv)) / (1 + (p 1).tv))) * (x / (p 3).tv) ^ a)
    (fun t => ((bpl2_value' (setv p 2 t) x).trans (bpl_ge hgt.not_gt)).trans ?_) ((cpow hp (idd _)).const_mul _) rfl⟩
  · refine mul_ne_zero (mul_ne_zero (div_ne_zero hN (mul_ne_zero h0.ne' (div_ne_zero hden ha')))
      (mul_ne_zero (Real.rpow_pos_of_pos hp _).ne' (mul_ne_zero one_ne_zero ?_))) hs
    refine Real.log_ne_zero_of_pos_of_ne_one hp ?_
    rw [ne_eq, div_eq_one_iff_eq h0.ne']
    exact hgt.ne'
  · exact congrArg (fun z => (p 0).tv / z * (x / (p 3).tv) ^ (t * (p 2).scale)) (G2_hi hlo hhi)

example : BPL2.deriv (fun i => ⟨[3, -1.5, -2.5, 1000, 100, 500].getD i 0, 1⟩) 2 5000 = .ok 0 ∧ ∃ d, d ≠ 0 ∧
    Partial (fun q => BPL2.value q 5000) (fun i => ⟨[3, -1.5, -2.5, 1000, 100, 500].getD i 0, 1⟩) 2 d :=
  C50_bpl2_index2_violates (by norm_num [P.tv]) (by norm_num) (by norm_num [P.tv]) (by norm_num [P.tv])
    (by norm_num [P.tv]) (by norm_num [P.tv]) (by norm_num [P.tv])

end Verif.PowerLaws
