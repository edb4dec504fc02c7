import Verif.Spectra.Props3
set_option linter.unusedSimpArgs false
set_option linter.unusedVariables false
set_option linter.unnecessarySeqFocus false
/-
C50, continued: the Band function and the broken power law with absorption.
-/
namespace Verif.Spectra

/-- The two formulas of the Band function agree at the break. -/
theorem band_meet {E e a b : ℝ} (he : 0 < e) (hab : b < a) (hE : E = e * (a - b)) :
    E ^ a * Real.exp (-E / e) = E ^ b * (e * (a - b)) ^ (a - b) * Real.exp (b - a) := by
  have hpos : 0 < e * (a - b) := mul_pos he (sub_pos.mpr hab)
  subst hE
  rw [← Real.rpow_add hpos]
  congr 2
  · ring
  · field_simp; ring

/-- The Band function, with the first index above the second: also at the break. -/
theorem C50_band_partial {p : Pars} {x : ℝ} (hx : 0 < x) (hN : (p 0).tv ≠ 0) (hS : 0 < (p 4).tv) (hE : 0 < (p 3).tv)
    (hab : (p 2).tv < (p 1).tv) {i : Nat} (hi : i < 4) :
    ∃ d, Band.deriv p i x = .ok d ∧ Partial (fun q => Band.value q x) p i d := by
  have hen : 0 < x / (p 4).tv := div_pos hx hS
  have hep : 0 < (p 3).tv / (p 4).tv := div_pos hE hS
  have hd : 0 < (p 1).tv - (p 2).tv := sub_pos.mpr hab
  have hbr : 0 < (p 3).tv / (p 4).tv * ((p 1).tv - (p 2).tv) := mul_pos hep hd
  have hnle : ¬ (p 1).tv ≤ (p 2).tv := not_le.mpr hab
  have hval : Band.value p x = _ := if_neg hnle
  obtain rfl | rfl | rfl | rfl : i = 0 ∨ i = 1 ∨ i = 2 ∨ i = 3 := by omega
  · refine ⟨_, rfl, partial_norm (if x / (p 4).tv < (p 3).tv / (p 4).tv * ((p 1).tv - (p 2).tv) then
      (x / (p 4).tv) ^ (p 1).tv * Real.exp (-(x / (p 4).tv) / ((p 3).tv / (p 4).tv)) else
      (x / (p 4).tv) ^ (p 2).tv * ((p 3).tv / (p 4).tv * ((p 1).tv - (p 2).tv)) ^ ((p 1).tv - (p 2).tv) *
        Real.exp ((p 2).tv - (p 1).tv)) (fun t => (if_neg hnle).trans ?_) hN rfl⟩
    rw [mul_ite, ← mul_assoc, ← mul_assoc, ← mul_assoc]
    rfl
  · -- by the first index
    have hd1 : Partial (fun q => Band.value q x) p 1 (Band.value p x *
        (if x / (p 4).tv < (p 3).tv / (p 4).tv * ((p 1).tv - (p 2).tv) then Real.log (x / (p 4).tv)
          else Real.log ((p 3).tv / (p 4).tv * ((p 1).tv - (p 2).tv))) * (p 1).scale) := by
      refine partial_ev (g := fun a => if x / (p 4).tv < (p 3).tv / (p 4).tv * (a - (p 2).tv) then
        (p 0).tv * (x / (p 4).tv) ^ a * Real.exp (-(x / (p 4).tv) / ((p 3).tv / (p 4).tv)) else
        (p 0).tv * (x / (p 4).tv) ^ (p 2).tv * ((p 3).tv / (p 4).tv * (a - (p 2).tv)) ^ (a - (p 2).tv) *
          Real.exp ((p 2).tv - a)) ?_ (d' := Band.value p x *
        (if x / (p 4).tv < (p 3).tv / (p 4).tv * ((p 1).tv - (p 2).tv) then Real.log (x / (p 4).tv)
          else Real.log ((p 3).tv / (p 4).tv * ((p 1).tv - (p 2).tv)))) ?_ rfl
      · filter_upwards [continuousAt_const.eventually_lt (idd (p 1).tv).continuousAt hab] with a ha t ht
        subst ht
        exact if_neg (not_le.mpr ha)
      · have hs := (idd (p 1).tv).sub_const (p 2).tv
        have hm := hs.const_mul ((p 3).tv / (p 4).tv)
        refine piece (hasDerivAt_const (p 1).tv (x / (p 4).tv)).continuousAt hm.continuousAt (fun t => rfl) ?_ ?_ ?_
        · intro h
          refine (((cpow hen (idd _)).const_mul (p 0).tv).mul_const _).congr_deriv ?_
          rw [hval]
          by_cases hlt : x / (p 4).tv < (p 3).tv / (p 4).tv * ((p 1).tv - (p 2).tv)
          · rw [if_pos hlt, if_pos hlt]; ring
          · have he := le_antisymm h (not_lt.mp hlt)
            have := band_meet hep hab he
            rw [if_neg hlt, if_neg hlt, ← he]
            rw [← he] at this
            linear_combination ((p 0).tv * Real.log (x / (p 4).tv)) * this
        · intro h
          refine (((pw hm hs hbr).const_mul ((p 0).tv * (x / (p 4).tv) ^ (p 2).tv)).fun_mul
            (ex ((idd _).const_sub (p 2).tv))).congr_deriv ?_
          rw [hval, if_neg (not_lt.mpr h), if_neg (not_lt.mpr h)]
          generalize Real.log ((p 3).tv / (p 4).tv * ((p 1).tv - (p 2).tv)) = L
          generalize ((p 3).tv / (p 4).tv * ((p 1).tv - (p 2).tv)) ^ ((p 1).tv - (p 2).tv) = F
          have h1 := hep.ne'
          have h2 := hd.ne'
          generalize (p 3).tv / (p 4).tv = e at *
          generalize hg : (p 1).tv - (p 2).tv = g at *
          have : e * 1 / (e * g) = 1 / g := by field_simp
          rw [this]
          field_simp
          ring
        · intro h
          have := band_meet hep hab h
          rw [mul_assoc, this]; ring
    refine ⟨_, ?_, hd1⟩
    simp only [Band.deriv, if_neg hnle]
    split <;> rfl
  · have hd1 : Partial (fun q => Band.value q x) p 2 (
        (if x / (p 4).tv < (p 3).tv / (p 4).tv * ((p 1).tv - (p 2).tv) then 0
          else Band.value p x * Real.log (x / (p 4).tv / ((p 3).tv / (p 4).tv) / ((p 1).tv - (p 2).tv))) *
        (p 2).scale) := by
      refine partial_ev (g := fun a => if x / (p 4).tv < (p 3).tv / (p 4).tv * ((p 1).tv - a) then
        (p 0).tv * (x / (p 4).tv) ^ (p 1).tv * Real.exp (-(x / (p 4).tv) / ((p 3).tv / (p 4).tv)) else
        (p 0).tv * (x / (p 4).tv) ^ a * ((p 3).tv / (p 4).tv * ((p 1).tv - a)) ^ ((p 1).tv - a) *
          Real.exp (a - (p 1).tv)) ?_ (d' :=
        (if x / (p 4).tv < (p 3).tv / (p 4).tv * ((p 1).tv - (p 2).tv) then 0
          else Band.value p x * Real.log (x / (p 4).tv / ((p 3).tv / (p 4).tv) / ((p 1).tv - (p 2).tv)))) ?_ rfl
      · filter_upwards [(idd (p 2).tv).continuousAt.eventually_lt continuousAt_const hab] with a ha t ht
        subst ht
        exact if_neg (not_le.mpr ha)
      · have hs := (idd (p 2).tv).const_sub (p 1).tv
        have hm := hs.const_mul ((p 3).tv / (p 4).tv)
        have hlog : Real.log (x / (p 4).tv / ((p 3).tv / (p 4).tv) / ((p 1).tv - (p 2).tv)) =
            Real.log (x / (p 4).tv) - Real.log ((p 3).tv / (p 4).tv * ((p 1).tv - (p 2).tv)) := by
          rw [div_div, Real.log_div hen.ne' hbr.ne']
        refine piece (hasDerivAt_const (p 2).tv (x / (p 4).tv)).continuousAt hm.continuousAt (fun t => rfl) ?_ ?_ ?_
        · intro h
          refine (hasDerivAt_const _ _).congr_deriv ?_
          by_cases hlt : x / (p 4).tv < (p 3).tv / (p 4).tv * ((p 1).tv - (p 2).tv)
          · rw [if_pos hlt]
          · have he := le_antisymm h (not_lt.mp hlt)
            rw [if_neg hlt, hlog, ← he]; ring
        · intro h
          refine ((((cpow hen (idd _)).const_mul (p 0).tv).fun_mul (pw hm hs hbr)).fun_mul
            (ex ((idd _).sub_const (p 1).tv))).congr_deriv ?_
          rw [hval, if_neg (not_lt.mpr h), if_neg (not_lt.mpr h), hlog]
          generalize Real.log ((p 3).tv / (p 4).tv * ((p 1).tv - (p 2).tv)) = L
          generalize ((p 3).tv / (p 4).tv * ((p 1).tv - (p 2).tv)) ^ ((p 1).tv - (p 2).tv) = F
          have h1 := hep.ne'
          have h2 := hd.ne'
          generalize (p 3).tv / (p 4).tv = e at *
          generalize hg : (p 1).tv - (p 2).tv = g at *
          have : e * -1 / (e * g) = -1 / g := by field_simp
          rw [this]
          field_simp
          ring
        · intro h
          have := band_meet hep hab h
          rw [mul_assoc, this]; ring
    refine ⟨_, ?_, hd1⟩
    simp only [Band.deriv, if_neg hnle]
    split
    · rw [zero_mul]
    · rfl
  · have hd1 : Partial (fun q => Band.value q x) p 3 (
        (if x / (p 4).tv < (p 3).tv / (p 4).tv * ((p 1).tv - (p 2).tv) then
          Band.value p x * (x / (p 4).tv) / ((p 3).tv / (p 4).tv) / ((p 3).tv / (p 4).tv * (p 4).tv)
          else Band.value p x * ((p 1).tv - (p 2).tv) / ((p 3).tv / (p 4).tv * (p 4).tv)) *
        (p 3).scale) := by
      refine partial_of (g := fun a => if x / (p 4).tv < a / (p 4).tv * ((p 1).tv - (p 2).tv) then
        (p 0).tv * (x / (p 4).tv) ^ (p 1).tv * Real.exp (-(x / (p 4).tv) / (a / (p 4).tv)) else
        (p 0).tv * (x / (p 4).tv) ^ (p 2).tv * (a / (p 4).tv * ((p 1).tv - (p 2).tv)) ^ ((p 1).tv - (p 2).tv) *
          Real.exp ((p 2).tv - (p 1).tv)) (fun t => if_neg hnle) (d' :=
        (if x / (p 4).tv < (p 3).tv / (p 4).tv * ((p 1).tv - (p 2).tv) then
          Band.value p x * (x / (p 4).tv) / ((p 3).tv / (p 4).tv) / ((p 3).tv / (p 4).tv * (p 4).tv)
          else Band.value p x * ((p 1).tv - (p 2).tv) / ((p 3).tv / (p 4).tv * (p 4).tv))) ?_ rfl
      have hs := (idd (p 3).tv).div_const (p 4).tv
      have hm := hs.mul_const ((p 1).tv - (p 2).tv)
      refine piece (hasDerivAt_const (p 3).tv (x / (p 4).tv)).continuousAt hm.continuousAt (fun t => rfl) ?_ ?_ ?_
      · intro h
        refine ((ex (cdiv (-(x / (p 4).tv)) hs hep.ne')).const_mul
          ((p 0).tv * (x / (p 4).tv) ^ (p 1).tv)).congr_deriv ?_
        rw [hval]
        by_cases hlt : x / (p 4).tv < (p 3).tv / (p 4).tv * ((p 1).tv - (p 2).tv)
        · rw [if_pos hlt, if_pos hlt]; field_simp
        · have he := le_antisymm h (not_lt.mp hlt)
          have := band_meet hep hab he
          rw [if_neg hlt, if_neg hlt]
          have h3 : (p 0).tv * (x / (p 4).tv) ^ (p 2).tv *
              ((p 3).tv / (p 4).tv * ((p 1).tv - (p 2).tv)) ^ ((p 1).tv - (p 2).tv) *
              Real.exp ((p 2).tv - (p 1).tv) = (p 0).tv * (x / (p 4).tv) ^ (p 1).tv *
              Real.exp (-(x / (p 4).tv) / ((p 3).tv / (p 4).tv)) := by
            rw [mul_assoc, mul_assoc, mul_assoc, this]; ring
          rw [h3]
          have h5 : x / (p 4).tv / ((p 3).tv / (p 4).tv) = (p 1).tv - (p 2).tv := by rw [he]; field_simp
          rw [← h5]
          field_simp
      · intro h
        refine (((powc _ hm hbr).const_mul ((p 0).tv * (x / (p 4).tv) ^ (p 2).tv)).mul_const _).congr_deriv ?_
        rw [hval, if_neg (not_lt.mpr h), if_neg (not_lt.mpr h)]
        have h2 := hd.ne'
        generalize ((p 3).tv / (p 4).tv * ((p 1).tv - (p 2).tv)) ^ ((p 1).tv - (p 2).tv) = F
        generalize hg : (p 1).tv - (p 2).tv = g at *
        field_simp
      · intro h
        have := band_meet hep hab h
        rw [mul_assoc, this]; ring
    refine ⟨_, ?_, hd1⟩
    simp only [Band.deriv, if_neg hnle]
    split <;> rfl

example : ∃ d, Band.deriv (fun i => ⟨[3, -1, -2, 300, 100].getD i 0, 1⟩) 1 300 = .ok d ∧
    Partial (fun q => Band.value q 300) (fun i => ⟨[3, -1, -2, 300, 100].getD i 0, 1⟩) 1 d :=
  C50_band_partial (by norm_num) (by norm_num [P.tv]) (by norm_num [P.tv]) (by norm_num [P.tv]) (by norm_num [P.tv])
    (by norm_num)

/-- With the first index at most the second the value does not depend on the first; the
reported derivative with respect to it is not zero. -/
theorem C50_band_violates {p : Pars} {x : ℝ} (hx : 0 < x) (hx1 : x ≠ (p 4).tv) (hN : (p 0).tv ≠ 0) (hS : 0 < (p 4).tv)
    (hs : (p 1).scale ≠ 0) (hab : (p 1).tv < (p 2).tv) :
    ∃ d, Band.deriv p 1 x = .ok d ∧ d ≠ 0 ∧ Partial (fun q => Band.value q x) p 1 0 := by
  have hen : 0 < x / (p 4).tv := div_pos hx hS
  refine ⟨_, if_pos hab.le, ?_, partial_zero' ((p 0).tv * (x / (p 4).tv) ^ (p 2).tv) ?_⟩
  · refine mul_ne_zero (mul_ne_zero (mul_ne_zero hN (Real.rpow_pos_of_pos hen _).ne') ?_) hs
    refine Real.log_ne_zero_of_pos_of_ne_one hen ?_
    rw [ne_eq, div_eq_one_iff_eq hS.ne']
    exact hx1
  · filter_upwards [ev_lt (lin (p 1).scale (p 1).value) (hasDerivAt_const _ (p 2).tv) hab] with t ht
    exact if_pos ht.le

example : ∃ d, Band.deriv (fun i => ⟨[3, -3, -2, 300, 100].getD i 0, 1⟩) 1 300 = .ok d ∧ d ≠ 0 ∧
    Partial (fun q => Band.value q 300) (fun i => ⟨[3, -3, -2, 300, 100].getD i 0, 1⟩) 1 0 :=
  C50_band_violates (by norm_num) (by norm_num [P.tv]) (by norm_num [P.tv]) (by norm_num [P.tv]) (by norm_num)
    (by norm_num [P.tv])

/-- The broken power law with absorption away from the break and the onset. -/
theorem C50_bplExp_partial {p : Pars} {x : ℝ} (hx : 0 < x) (hN : (p 0).tv ≠ 0) (hB : 0 < (p 3).tv) (h1 : (p 5).tv ≠ 0)
    (hxb : x ≠ (p 3).tv) (hxe : x ≠ (p 4).tv) {i : Nat} (hi : i < 6) :
    ∃ d, BplExp.deriv p i x = .ok d ∧ Partial (fun q => BplExp.value q x) p i d := by
  have hpos : 0 < x / (p 3).tv := div_pos hx hB
  have n1 := fun (a b : ℝ) (h : a < b) => h.not_gt
  rcases lt_or_gt_of_ne hxb with hb | hb <;> rcases lt_or_gt_of_ne hxe with he | he
  · have c : x < (p 3).tv ∧ x < (p 4).tv := ⟨hb, he⟩
    have hval : BplExp.value p x = _ := if_pos c
    obtain rfl | rfl | rfl | rfl | rfl | rfl : i = 0 ∨ i = 1 ∨ i = 2 ∨ i = 3 ∨ i = 4 ∨ i = 5 := by omega
    · exact ⟨_, if_pos hN, partial_norm ((x / (p 3).tv) ^ (p 1).tv) (fun t => if_pos c) hN rfl⟩
    · exact ⟨_, if_pos hb, partial_of (g := fun a => (p 0).tv * (x / (p 3).tv) ^ a) (fun t => if_pos c)
        ((cpow hpos (idd _)).const_mul _) (by rw [hval]; ring)⟩
    · exact ⟨_, if_neg hb.not_gt, partial_zero' ((p 0).tv * (x / (p 3).tv) ^ (p 1).tv)
        (Filter.Eventually.of_forall fun t => if_pos c)⟩
    · refine ⟨_, if_pos hb, partial_ev (g := fun a => (p 0).tv * (x / a) ^ (p 1).tv) ?_
        ((powc _ (cdiv x (idd _) hB.ne') hpos).const_mul _) (by rw [hval]; field_simp)⟩
      filter_upwards [ev_lt (hasDerivAt_const _ x) (idd (p 3).tv) hb] with a ha t ht
      subst ht
      exact if_pos ⟨ha, he⟩
    · refine ⟨_, if_pos he, partial_zero' ((p 0).tv * (x / (p 3).tv) ^ (p 1).tv) ?_⟩
      filter_upwards [ev_lt (hasDerivAt_const _ x) (lin (p 4).scale (p 4).value) he] with t ht
      exact if_pos ⟨hb, ht⟩
    · exact ⟨_, if_pos he, partial_zero' ((p 0).tv * (x / (p 3).tv) ^ (p 1).tv)
        (Filter.Eventually.of_forall fun t => if_pos c)⟩
  · have c : x < (p 3).tv ∧ (p 4).tv < x := ⟨hb, he⟩
    have form : ∀ (a0 a1 a2 a3 a4 a5 : ℝ), x < a3 → a4 < x →
        (if x < a3 ∧ x < a4 then a0 * (x / a3) ^ a1 else if a3 < x ∧ x < a4 then a0 * (x / a3) ^ a2
        else if x < a3 ∧ a4 < x then a0 * (x / a3) ^ a1 * Real.exp (-((x - a4) / a5))
        else if a3 < x ∧ a4 < x then a0 * (x / a3) ^ a2 * Real.exp (-((x - a4) / a5)) else 0) =
        a0 * (x / a3) ^ a1 * Real.exp (-((x - a4) / a5)) := by
      intro a0 a1 a2 a3 a4 a5 h3 h4
      simp [h3, h4, h3.not_gt, h4.not_gt]
    have hval : BplExp.value p x = _ := form _ _ (p 2).tv _ _ _ hb he
    obtain rfl | rfl | rfl | rfl | rfl | rfl : i = 0 ∨ i = 1 ∨ i = 2 ∨ i = 3 ∨ i = 4 ∨ i = 5 := by omega
    · exact ⟨_, if_pos hN, partial_norm ((x / (p 3).tv) ^ (p 1).tv * Real.exp (-((x - (p 4).tv) / (p 5).tv)))
        (fun t => (form _ _ (p 2).tv _ _ _ hb he).trans (mul_assoc _ _ _)) hN rfl⟩
    · exact ⟨_, if_pos hb, partial_of (g := fun a => (p 0).tv * (x / (p 3).tv) ^ a *
        Real.exp (-((x - (p 4).tv) / (p 5).tv))) (fun t => form _ _ (p 2).tv _ _ _ hb he)
        (((cpow hpos (idd _)).const_mul _).mul_const _) (by rw [hval]; ring)⟩
    · exact ⟨_, if_neg hb.not_gt, partial_zero' ((p 0).tv * (x / (p 3).tv) ^ (p 1).tv * Real.exp (-((x - (p 4).tv) / (p 5).tv)))
        (Filter.Eventually.of_forall fun t => form _ _ _ _ _ _ hb he)⟩
    · refine ⟨_, if_pos hb, partial_ev (g := fun a => (p 0).tv * (x / a) ^ (p 1).tv *
        Real.exp (-((x - (p 4).tv) / (p 5).tv))) ?_
        (((powc _ (cdiv x (idd _) hB.ne') hpos).const_mul _).mul_const _) (by rw [hval]; field_simp)⟩
      filter_upwards [ev_lt (hasDerivAt_const _ x) (idd (p 3).tv) hb] with a ha t ht
      subst ht
      exact form _ _ (p 2).tv _ _ _ ha he
    · refine ⟨_, if_neg he.not_gt, partial_ev (g := fun a => (p 0).tv * (x / (p 3).tv) ^ (p 1).tv *
        Real.exp (-((x - a) / (p 5).tv))) ?_
        ((ex (((idd _).const_sub x).div_const (p 5).tv).fun_neg).const_mul _) (by rw [hval]; field_simp)⟩
      filter_upwards [ev_lt (idd (p 4).tv) (hasDerivAt_const _ x) he] with a ha t ht
      subst ht
      exact form _ _ (p 2).tv _ _ _ hb ha
    · exact ⟨_, if_neg he.not_gt, partial_of (g := fun a => (p 0).tv * (x / (p 3).tv) ^ (p 1).tv *
        Real.exp (-((x - (p 4).tv) / a))) (fun t => form _ _ (p 2).tv _ _ _ hb he)
        ((ex (cdiv _ (idd _) h1).fun_neg).const_mul _) (by rw [hval]; field_simp)⟩
  · have c : (p 3).tv < x ∧ x < (p 4).tv := ⟨hb, he⟩
    have form : ∀ (a0 a1 a2 a3 a4 a5 : ℝ), a3 < x → x < a4 →
        (if x < a3 ∧ x < a4 then a0 * (x / a3) ^ a1 else if a3 < x ∧ x < a4 then a0 * (x / a3) ^ a2
        else if x < a3 ∧ a4 < x then a0 * (x / a3) ^ a1 * Real.exp (-((x - a4) / a5))
        else if a3 < x ∧ a4 < x then a0 * (x / a3) ^ a2 * Real.exp (-((x - a4) / a5)) else 0) =
        a0 * (x / a3) ^ a2 := by
      intro a0 a1 a2 a3 a4 a5 h3 h4
      simp [h3, h4, h3.not_gt, h4.not_gt]
    have hval : BplExp.value p x = _ := form _ (p 1).tv _ _ _ (p 5).tv hb he
    obtain rfl | rfl | rfl | rfl | rfl | rfl : i = 0 ∨ i = 1 ∨ i = 2 ∨ i = 3 ∨ i = 4 ∨ i = 5 := by omega
    · exact ⟨_, if_pos hN, partial_norm ((x / (p 3).tv) ^ (p 2).tv)
        (fun t => form _ (p 1).tv _ _ _ (p 5).tv hb he) hN rfl⟩
    · exact ⟨_, if_neg hb.not_gt, partial_zero' ((p 0).tv * (x / (p 3).tv) ^ (p 2).tv)
        (Filter.Eventually.of_forall fun t =>
        form _ _ _ _ _ (p 5).tv hb he)⟩
    · exact ⟨_, if_pos hb, partial_of (g := fun a => (p 0).tv * (x / (p 3).tv) ^ a)
        (fun t => form _ (p 1).tv _ _ _ (p 5).tv hb he)
        ((cpow hpos (idd _)).const_mul _) (by rw [hval]; ring)⟩
    · refine ⟨_, if_neg hb.not_gt, partial_ev (g := fun a => (p 0).tv * (x / a) ^ (p 2).tv) ?_
        ((powc _ (cdiv x (idd _) hB.ne') hpos).const_mul _) (by rw [hval]; field_simp)⟩
      filter_upwards [ev_lt (idd (p 3).tv) (hasDerivAt_const _ x) hb] with a ha t ht
      subst ht
      exact form _ (p 1).tv _ _ _ (p 5).tv ha he
    · refine ⟨_, if_pos he, partial_zero' ((p 0).tv * (x / (p 3).tv) ^ (p 2).tv) ?_⟩
      filter_upwards [ev_lt (hasDerivAt_const _ x) (lin (p 4).scale (p 4).value) he] with t ht
      exact form _ (p 1).tv _ _ _ (p 5).tv hb ht
    · exact ⟨_, if_pos he, partial_zero' ((p 0).tv * (x / (p 3).tv) ^ (p 2).tv)
        (Filter.Eventually.of_forall fun t => form _ (p 1).tv _ _ _ _ hb he)⟩
  · have c : (p 3).tv < x ∧ (p 4).tv < x := ⟨hb, he⟩
    have form : ∀ (a0 a1 a2 a3 a4 a5 : ℝ), a3 < x → a4 < x →
        (if x < a3 ∧ x < a4 then a0 * (x / a3) ^ a1 else if a3 < x ∧ x < a4 then a0 * (x / a3) ^ a2
        else if x < a3 ∧ a4 < x then a0 * (x / a3) ^ a1 * Real.exp (-((x - a4) / a5))
        else if a3 < x ∧ a4 < x then a0 * (x / a3) ^ a2 * Real.exp (-((x - a4) / a5)) else 0) =
        a0 * (x / a3) ^ a2 * Real.exp (-((x - a4) / a5)) := by
      intro a0 a1 a2 a3 a4 a5 h3 h4
      simp [h3, h4, h3.not_gt, h4.not_gt]
    have hval : BplExp.value p x = _ := form _ (p 1).tv _ _ _ _ hb he
    obtain rfl | rfl | rfl | rfl | rfl | rfl : i = 0 ∨ i = 1 ∨ i = 2 ∨ i = 3 ∨ i = 4 ∨ i = 5 := by omega
    · exact ⟨_, if_pos hN, partial_norm ((x / (p 3).tv) ^ (p 2).tv * Real.exp (-((x - (p 4).tv) / (p 5).tv)))
        (fun t => (form _ (p 1).tv _ _ _ _ hb he).trans (mul_assoc _ _ _)) hN rfl⟩
    · exact ⟨_, if_neg hb.not_gt, partial_zero' ((p 0).tv * (x / (p 3).tv) ^ (p 2).tv * Real.exp (-((x - (p 4).tv) / (p 5).tv)))
        (Filter.Eventually.of_forall fun t =>
        form _ _ _ _ _ _ hb he)⟩
    · exact ⟨_, if_pos hb, partial_of (g := fun a => (p 0).tv * (x / (p 3).tv) ^ a *
        Real.exp (-((x - (p 4).tv) / (p 5).tv))) (fun t => form _ (p 1).tv _ _ _ _ hb he)
        (((cpow hpos (idd _)).const_mul _).mul_const _) (by rw [hval]; ring)⟩
    · refine ⟨_, if_neg hb.not_gt, partial_ev (g := fun a => (p 0).tv * (x / a) ^ (p 2).tv *
        Real.exp (-((x - (p 4).tv) / (p 5).tv))) ?_
        (((powc _ (cdiv x (idd _) hB.ne') hpos).const_mul _).mul_const _) (by rw [hval]; field_simp)⟩
      filter_upwards [ev_lt (idd (p 3).tv) (hasDerivAt_const _ x) hb] with a ha t ht
      subst ht
      exact form _ (p 1).tv _ _ _ _ ha he
    · refine ⟨_, if_neg he.not_gt, partial_ev (g := fun a => (p 0).tv * (x / (p 3).tv) ^ (p 2).tv *
        Real.exp (-((x - a) / (p 5).tv))) ?_
        ((ex (((idd _).const_sub x).div_const (p 5).tv).fun_neg).const_mul _) (by rw [hval]; field_simp)⟩
      filter_upwards [ev_lt (idd (p 4).tv) (hasDerivAt_const _ x) he] with a ha t ht
      subst ht
      exact form _ (p 1).tv _ _ _ _ hb ha
    · exact ⟨_, if_neg he.not_gt, partial_of (g := fun a => (p 0).tv * (x / (p 3).tv) ^ (p 2).tv *
        Real.exp (-((x - (p 4).tv) / a))) (fun t => form _ (p 1).tv _ _ _ _ hb he)
        ((ex (cdiv _ (idd _) h1).fun_neg).const_mul _) (by rw [hval]; field_simp)⟩

example : ∃ d, BplExp.deriv (fun i => ⟨[3, -1, -2, 300, 400, 50].getD i 0, 1⟩) 4 500 = .ok d ∧
    Partial (fun q => BplExp.value q 500) (fun i => ⟨[3, -1, -2, 300, 400, 50].getD i 0, 1⟩) 4 d :=
  C50_bplExp_partial (by norm_num) (by norm_num [P.tv]) (by norm_num [P.tv]) (by norm_num [P.tv]) (by norm_num [P.tv])
    (by norm_num [P.tv]) (by norm_num)

/-- With the prefactor zero the derivative with respect to it, above the onset of absorption, is not
the reported one unless the scales happen to agree: they are applied twice. -/
theorem C50_bplExp_violates {p : Pars} {x : ℝ} (hx : 0 < x) (hN : (p 0).tv = 0) (hs : (p 0).scale ≠ 0)
    (hB : 0 < (p 3).tv) (hxb : x < (p 3).tv) (hxe : (p 4).tv < x)
    (hne : (x - (p 4).tv * (p 4).scale) / (p 5).tv * (p 5).scale ≠ (x - (p 4).tv) / (p 5).tv) :
    ∃ d, BplExp.deriv p 0 x = .ok d ∧ ¬ Partial (fun q => BplExp.value q x) p 0 d := by
  have hpos : 0 < x / (p 3).tv := div_pos hx hB
  have hd : BplExp.deriv p 0 x = .ok ((x / (p 3).tv) ^ (p 1).tv * (p 0).scale *
      Real.exp (-(x - (p 4).tv * (p 4).scale) / (p 5).tv * (p 5).scale)) := by
    simp [BplExp.deriv, hN, hxb, hxe, hxb.not_gt, hxe.not_gt]
  refine ⟨_, hd, fun h => ?_⟩
  have h2 : Partial (fun q => BplExp.value q x) p 0 ((x / (p 3).tv) ^ (p 1).tv *
      Real.exp (-((x - (p 4).tv) / (p 5).tv)) * (p 0).scale) := by
    refine partial_of (g := fun a => a * ((x / (p 3).tv) ^ (p 1).tv * Real.exp (-((x - (p 4).tv) / (p 5).tv))))
      (fun t => ?_) ((idd _).mul_const _) (by ring)
    have form : ∀ (a0 a1 a2 a3 a4 a5 : ℝ), x < a3 → a4 < x →
        (if x < a3 ∧ x < a4 then a0 * (x / a3) ^ a1 else if a3 < x ∧ x < a4 then a0 * (x / a3) ^ a2
        else if x < a3 ∧ a4 < x then a0 * (x / a3) ^ a1 * Real.exp (-((x - a4) / a5))
        else if a3 < x ∧ a4 < x then a0 * (x / a3) ^ a2 * Real.exp (-((x - a4) / a5)) else 0) =
        a0 * ((x / a3) ^ a1 * Real.exp (-((x - a4) / a5))) := by
      intro a0 a1 a2 a3 a4 a5 h3 h4
      simp [h3, h4, h3.not_gt, h4.not_gt, mul_assoc]
    exact form _ _ (p 2).tv _ _ _ hxb hxe
  have h3 := h.unique h2
  have hp := (Real.rpow_pos_of_pos hpos (p 1).tv).ne'
  have h4 : Real.exp (-(x - (p 4).tv * (p 4).scale) / (p 5).tv * (p 5).scale) =
      Real.exp (-((x - (p 4).tv) / (p 5).tv)) := by
    have : (x / (p 3).tv) ^ (p 1).tv * (p 0).scale ≠ 0 := mul_ne_zero hp hs
    refine mul_left_cancel₀ this ?_
    rw [h3]; ring
  have h5 := Real.exp_injective h4
  apply hne
  rw [neg_div, neg_mul] at h5
  exact neg_injective h5

example : ∃ d, BplExp.deriv (fun i => ⟨[0, -1, -2, 600, 200, 50].getD i 0, 2⟩) 0 500 = .ok d ∧
    ¬ Partial (fun q => BplExp.value q 500) (fun i => ⟨[0, -1, -2, 600, 200, 50].getD i 0, 2⟩) 0 d :=
  C50_bplExp_violates (by norm_num) (by norm_num [P.tv]) (by norm_num) (by norm_num [P.tv]) (by norm_num [P.tv])
    (by norm_num [P.tv]) (by norm_num [P.tv])

/-- The value drops to zero exactly at the break, and exactly at the onset of absorption,
whatever the other parameters. -/
theorem C51_bplExp_violates {p : Pars} {x : ℝ} (h : x = (p 3).tv ∨ x = (p 4).tv) : BplExp.value p x = 0 := by
  have : ∀ (a0 a1 a2 a3 a4 a5 : ℝ), x = a3 ∨ x = a4 →
        (if x < a3 ∧ x < a4 then a0 * (x / a3) ^ a1 else if a3 < x ∧ x < a4 then a0 * (x / a3) ^ a2
        else if x < a3 ∧ a4 < x then a0 * (x / a3) ^ a1 * Real.exp (-((x - a4) / a5))
        else if a3 < x ∧ a4 < x then a0 * (x / a3) ^ a2 * Real.exp (-((x - a4) / a5)) else 0) = 0 := by
    intro a0 a1 a2 a3 a4 a5 h
    rcases h with rfl | rfl <;> simp
  exact this _ _ _ _ _ _ h

example : BplExp.value (fun i => ⟨[3, -1, -2, 300, 400, 50].getD i 0, 1⟩) 300 = 0 ∧
    0 < BplExp.value (fun i => ⟨[3, -1, -2, 300, 400, 50].getD i 0, 1⟩) 200 := by
  refine ⟨C51_bplExp_violates (by norm_num [P.tv]), ?_⟩
  norm_num [BplExp.value, P.tv]
  try positivity

end Verif.Spectra
