import Verif.Spectra.Props2
set_option linter.unusedSimpArgs false
set_option linter.unusedVariables false
set_option linter.unnecessarySeqFocus false
/-
C50, continued: the functions with a bounded exponent, the Band function and the broken
power law with absorption.
-/
namespace Verif.Spectra

/-- The bounded exponential, below the bound. -/
theorem exmin {f : ℝ → ℝ} {f' v : ℝ} (m : ℝ) (hf : HasDerivAt f f' v) (h : f v < m) :
    HasDerivAt (fun t => Real.exp (min (f t) m)) (Real.exp (min (f v) m) * f') v := by
  rw [min_eq_left h.le]
  refine (ex hf).congr_of_eventuallyEq ?_
  filter_upwards [hf.continuousAt.eventually_lt continuousAt_const h] with t ht
  rw [min_eq_left ht.le]

/-- Above it, constant. -/
theorem exmin' {f : ℝ → ℝ} {v : ℝ} (m : ℝ) (hf : ContinuousAt f v) (h : m < f v) :
    HasDerivAt (fun t => Real.exp (min (f t) m)) 0 v := by
  refine (hasDerivAt_const v (Real.exp m)).congr_of_eventuallyEq ?_
  filter_upwards [continuousAt_const.eventually_lt hf h] with t ht
  rw [min_eq_right ht.le]

/-- Second form: right as long as the exponent is below the bound (needed for the
parameters of the exponential only). -/
theorem C50_superExpCutoff2_partial {p : Pars} {x : ℝ} (hx : 0 < x) (hN : (p 0).tv ≠ 0) (hS : 0 < (p 2).tv)
    {i : Nat} (hi : i < 5) (hm : 3 ≤ i → -(p 3).tv * x ^ (p 4).tv < Real.log (10 ^ 100)) :
    ∃ d, Sec2.deriv p i x = .ok d ∧ Partial (fun q => Sec2.value q x) p i d := by
  have hpos : 0 < x / (p 2).tv := div_pos hx hS
  obtain rfl | rfl | rfl | rfl | rfl : i = 0 ∨ i = 1 ∨ i = 2 ∨ i = 3 ∨ i = 4 := by omega
  · exact ⟨_, rfl, partial_norm ((x / (p 2).tv) ^ (p 1).tv * Real.exp (min (-(p 3).tv * x ^ (p 4).tv) maxExp))
      (fun t => by simp only [Sec2.value, setv, Function.update, P.tv]; simp; ring) hN rfl⟩
  · exact ⟨_, rfl, partial_of (g := fun a => (p 0).tv * (x / (p 2).tv) ^ a *
      Real.exp (min (-(p 3).tv * x ^ (p 4).tv) maxExp))
      (fun t => rfl) (((cpow hpos (idd _)).const_mul _).mul_const _) (by simp only [Sec2.value]; ring)⟩
  · exact ⟨_, rfl, partial_of (g := fun a => (p 0).tv * (x / a) ^ (p 1).tv *
      Real.exp (min (-(p 3).tv * x ^ (p 4).tv) maxExp))
      (fun t => rfl) (((powc _ (cdiv x (idd _) hS.ne') hpos).const_mul _).mul_const _)
      (by simp only [Sec2.value]; field_simp)⟩
  · exact ⟨_, rfl, partial_of (g := fun a => (p 0).tv * (x / (p 2).tv) ^ (p 1).tv *
      Real.exp (min (-a * x ^ (p 4).tv) maxExp))
      (fun t => rfl) ((exmin maxExp ((idd _).fun_neg.mul_const (x ^ (p 4).tv)) (hm (by omega))).const_mul _)
      (by simp only [Sec2.value]; ring)⟩
  · exact ⟨_, rfl, partial_of (g := fun a => (p 0).tv * (x / (p 2).tv) ^ (p 1).tv *
      Real.exp (min (-(p 3).tv * x ^ a) maxExp))
      (fun t => rfl) ((exmin maxExp ((cpow hx (idd _)).const_mul (-(p 3).tv)) (hm (by omega))).const_mul _)
      (by simp only [Sec2.value]; ring)⟩

example : ∃ d, Sec2.deriv (fun i => ⟨[3, -2, 100, 1, 1].getD i 0, 2⟩) 4 500 = .ok d ∧
    Partial (fun q => Sec2.value q 500) (fun i => ⟨[3, -2, 100, 1, 1].getD i 0, 2⟩) 4 d :=
  C50_superExpCutoff2_partial (by norm_num) (by norm_num [P.tv]) (by norm_num [P.tv]) (by norm_num) (fun _ => by
    have : 0 < Real.log (10 ^ 100) := Real.log_pos (by norm_num)
    refine lt_of_le_of_lt ?_ this
    rw [neg_mul]
    exact neg_nonpos.mpr (mul_nonneg (by norm_num [P.tv]) (Real.rpow_nonneg (by norm_num) _)))

/-- Above the bound the value does not depend on the parameters of the exponential, but
the derivative reported by the exponential factor is not zero. -/
theorem C50_superExpCutoff2_violates {p : Pars} {x : ℝ} (hx : 0 < x) (hS : 0 < (p 2).tv) (hN : (p 0).tv ≠ 0)
    (hs : (p 3).scale ≠ 0) (hm : Real.log (10 ^ 100) < -(p 3).tv * x ^ (p 4).tv) :
    ∃ d, Sec2.deriv p 3 x = .ok d ∧ d ≠ 0 ∧ Partial (fun q => Sec2.value q x) p 3 0 ∧
      ¬ Partial (fun q => Sec2.value q x) p 3 d := by
  have hpos : 0 < x / (p 2).tv := div_pos hx hS
  have h0 : Partial (fun q => Sec2.value q x) p 3 0 := by
    refine partial_of (g := fun a => (p 0).tv * (x / (p 2).tv) ^ (p 1).tv *
      Real.exp (min (-a * x ^ (p 4).tv) maxExp)) (fun t => rfl)
      ((exmin' maxExp ((idd _).fun_neg.mul_const (x ^ (p 4).tv)).continuousAt hm).const_mul _) (by ring)
  have hd : Sec2.value p x * (-x ^ (p 4).tv) * (p 3).scale ≠ 0 := by
    have h1 := Real.rpow_pos_of_pos hx (p 4).tv
    have h2 := Real.rpow_pos_of_pos hpos (p 1).tv
    have h3 : Sec2.value p x ≠ 0 := by
      simp only [Sec2.value]
      exact mul_ne_zero (mul_ne_zero hN h2.ne') (Real.exp_pos _).ne'
    exact mul_ne_zero (mul_ne_zero h3 (neg_ne_zero.mpr h1.ne')) hs
  exact ⟨_, rfl, hd, h0, fun h => hd (h.unique h0)⟩

/-- The cutoff term is beyond the bound for a negative exponential factor and a moderate energy. -/
example : ∃ d, Sec2.deriv (fun i => ⟨[3, -2, 100, -1, 2].getD i 0, 1⟩) 3 100 = .ok d ∧
    ¬ Partial (fun q => Sec2.value q 100) (fun i => ⟨[3, -2, 100, -1, 2].getD i 0, 1⟩) 3 d := by
  obtain ⟨d, h1, -, -, h2⟩ := C50_superExpCutoff2_violates (p := fun i => ⟨[3, -2, 100, -1, 2].getD i 0, 1⟩) (x := 100)
    (by norm_num) (by norm_num [P.tv]) (by norm_num [P.tv]) (by norm_num) (by
      rw [Real.log_pow]
      have h : Real.log 10 < 10 := lt_of_lt_of_le (Real.log_lt_sub_one_of_pos (by norm_num) (by norm_num)) (by norm_num)
      have : (100 : ℝ) ^ (2 : ℝ) = 10000 := by norm_num
      norm_num [P.tv, this]
      linarith)
  exact ⟨d, h1, h2⟩

/-- Third form: right as long as the exponent is below the bound. -/
theorem C50_superExpCutoff3_partial {p : Pars} {x : ℝ} (hx : 0 < x) (hN : (p 0).tv ≠ 0) (hS : 0 < (p 2).tv)
    {i : Nat} (hi : i < 5) (hm : 1 ≤ i → ((p 1).tv + (p 3).tv * (p 4).tv) * Real.log (x / (p 2).tv) +
      (p 3).tv * (1 - (x / (p 2).tv) ^ (p 4).tv) < Real.log (10 ^ 100)) :
    ∃ d, Sec3.deriv p i x = .ok d ∧ Partial (fun q => Sec3.value q x) p i d := by
  have hpos : 0 < x / (p 2).tv := div_pos hx hS
  obtain rfl | rfl | rfl | rfl | rfl : i = 0 ∨ i = 1 ∨ i = 2 ∨ i = 3 ∨ i = 4 := by omega
  · exact ⟨_, rfl, partial_norm (Real.exp (min (Sec3.expo p x) maxExp))
      (fun t => rfl) hN rfl⟩
  · refine ⟨_, rfl, partial_of (g := fun a => (p 0).tv * Real.exp (min ((a + (p 3).tv * (p 4).tv) *
      Real.log (x / (p 2).tv) + (p 3).tv * (1 - (x / (p 2).tv) ^ (p 4).tv)) maxExp)) (fun t => rfl)
      ((exmin maxExp ((((idd _).add_const _).mul_const _).add_const _) (hm le_rfl)).const_mul _) ?_⟩
    simp only [Sec3.value, Sec3.expo]; ring
  · have h0 := cdiv x (idd (p 2).tv) hS.ne'
    refine ⟨_, rfl, partial_of (g := fun a => (p 0).tv * Real.exp (min (((p 1).tv + (p 3).tv * (p 4).tv) *
      Real.log (x / a) + (p 3).tv * (1 - (x / a) ^ (p 4).tv)) maxExp)) (fun t => rfl)
      ((exmin maxExp (((lg h0 hpos).const_mul _).fun_add (((powc _ h0 hpos).const_sub 1).const_mul _))
        (hm (by omega))).const_mul _) ?_⟩
    simp only [Sec3.value, Sec3.expo]; field_simp
  · refine ⟨_, rfl, partial_of (g := fun a => (p 0).tv * Real.exp (min (((p 1).tv + a * (p 4).tv) *
      Real.log (x / (p 2).tv) + a * (1 - (x / (p 2).tv) ^ (p 4).tv)) maxExp)) (fun t => rfl)
      ((exmin maxExp (((((idd _).mul_const _).const_add _).mul_const _).fun_add ((idd _).mul_const _))
        (hm (by omega))).const_mul _) ?_⟩
    simp only [Sec3.value, Sec3.expo]; ring
  · refine ⟨_, rfl, partial_of (g := fun a => (p 0).tv * Real.exp (min (((p 1).tv + (p 3).tv * a) *
      Real.log (x / (p 2).tv) + (p 3).tv * (1 - (x / (p 2).tv) ^ a)) maxExp)) (fun t => rfl)
      ((exmin maxExp (((((idd _).const_mul _).const_add _).mul_const _).fun_add
        (((cpow hpos (idd _)).const_sub 1).const_mul _)) (hm (by omega))).const_mul _) ?_⟩
    simp only [Sec3.value, Sec3.expo]; ring

example : ∃ d, Sec3.deriv (fun i => ⟨[3, -2, 100, 1, 1].getD i 0, 1⟩) 4 200 = .ok d ∧
    Partial (fun q => Sec3.value q 200) (fun i => ⟨[3, -2, 100, 1, 1].getD i 0, 1⟩) 4 d :=
  C50_superExpCutoff3_partial (by norm_num) (by norm_num [P.tv]) (by norm_num [P.tv]) (by norm_num) (fun _ => by
    have h1 : 0 < Real.log (10 ^ 100) := Real.log_pos (by norm_num)
    have h2 : 0 < Real.log 2 := Real.log_pos (by norm_num)
    refine lt_of_le_of_lt ?_ h1
    norm_num [P.tv]
    linarith)

/-- Fourth form: right away from the boundary between the two formulas, as long as the
exponent is below the bound. -/
theorem C50_superExpCutoff4_partial {p : Pars} {x : ℝ} (hx : 0 < x) (hN : (p 0).tv ≠ 0) (hS : 0 < (p 2).tv)
    {i : Nat} (hi : i < 5) (hb : |(p 4).tv * Real.log (x / (p 2).tv)| ≠ 1 / 100)
    (hm : 1 / 100 < |(p 4).tv * Real.log (x / (p 2).tv)| → 1 ≤ i →
      ((p 1).tv + (p 3).tv / (p 4).tv) * Real.log (x / (p 2).tv) +
      (p 3).tv / (p 4).tv / (p 4).tv * (1 - Real.exp ((p 4).tv * Real.log (x / (p 2).tv))) < Real.log (10 ^ 100)) :
    ∃ d, Sec4.deriv p i x = .ok d ∧ Partial (fun q => Sec4.value q x) p i d := by
  have hpos : 0 < x / (p 2).tv := div_pos hx hS
  have hy : HasDerivAt (fun a => Real.log (x / a)) (-1 / (p 2).tv) (p 2).tv := by
    refine (lg (cdiv x (idd (p 2).tv) hS.ne') hpos).congr_deriv ?_
    field_simp
  have hc2 : ContinuousAt (fun a => |(p 4).tv * Real.log (x / a)|) (p 2).tv :=
    (hy.const_mul (p 4).tv).continuousAt.abs
  have hc4 : ContinuousAt (fun a => |a * Real.log (x / (p 2).tv)|) (p 4).tv :=
    ((idd (p 4).tv).mul_const (Real.log (x / (p 2).tv))).continuousAt.abs
  by_cases hlt : |(p 4).tv * Real.log (x / (p 2).tv)| < 1 / 100
  · have hval : Sec4.value p x = _ := if_pos hlt
    obtain rfl | rfl | rfl | rfl | rfl : i = 0 ∨ i = 1 ∨ i = 2 ∨ i = 3 ∨ i = 4 := by omega
    · exact ⟨_, rfl, partial_norm (Real.exp (Sec4.small p x)) (fun t => if_pos hlt) hN rfl⟩
    · refine ⟨_, rfl, partial_of (g := fun a => (p 0).tv * Real.exp (Real.log (x / (p 2).tv) * (a - (p 3).tv *
        Real.log (x / (p 2).tv) / 2 * (1 + (p 4).tv * Real.log (x / (p 2).tv) / 3 *
          (1 + (p 4).tv * Real.log (x / (p 2).tv) / 4))))) (fun t => if_pos hlt)
        ((ex (((idd _).sub_const _).const_mul _)).const_mul _) ?_⟩
      rw [hval]; simp only [Sec4.small]; ring
    · refine ⟨_, if_pos hlt, ?_⟩
      have hq : HasDerivAt (fun a => (p 0).tv * Real.exp (Real.log (x / a) * ((p 1).tv - (p 3).tv *
          Real.log (x / a) / 2 * (1 + (p 4).tv * Real.log (x / a) / 3 *
          (1 + (p 4).tv * Real.log (x / a) / 4))))) _ (p 2).tv :=
        (ex (hy.fun_mul ((((hy.const_mul (p 3).tv).div_const 2).fun_mul
          ((((hy.const_mul (p 4).tv).div_const 3).fun_mul
            (((hy.const_mul (p 4).tv).div_const 4).const_add 1)).const_add 1)).const_sub (p 1).tv))).const_mul (p 0).tv
      refine partial_ev ?_ hq ?_
      · filter_upwards [hc2.eventually_lt continuousAt_const hlt] with a ha t ht
        subst ht
        exact if_pos ha
      · rw [hval]; simp only [Sec4.small]; field_simp; ring
    · refine ⟨_, if_pos hlt, partial_of (g := fun a => (p 0).tv * Real.exp (Real.log (x / (p 2).tv) * ((p 1).tv - a *
        Real.log (x / (p 2).tv) / 2 * (1 + (p 4).tv * Real.log (x / (p 2).tv) / 3 *
          (1 + (p 4).tv * Real.log (x / (p 2).tv) / 4))))) (fun t => if_pos hlt)
        ((ex ((((((idd _).mul_const _).div_const _).mul_const _).const_sub _).const_mul _)).const_mul _) ?_⟩
      rw [hval]; simp only [Sec4.small]; ring
    · refine ⟨_, if_pos hlt, ?_⟩
      have ha := (idd (p 4).tv).mul_const (Real.log (x / (p 2).tv))
      have hq : HasDerivAt (fun a => (p 0).tv * Real.exp (Real.log (x / (p 2).tv) * ((p 1).tv - (p 3).tv *
          Real.log (x / (p 2).tv) / 2 * (1 + a * Real.log (x / (p 2).tv) / 3 *
          (1 + a * Real.log (x / (p 2).tv) / 4))))) _ (p 4).tv :=
        (ex ((((((ha.div_const 3).fun_mul ((ha.div_const 4).const_add 1)).const_add 1).const_mul
          ((p 3).tv * Real.log (x / (p 2).tv) / 2)).const_sub (p 1).tv).const_mul
            (Real.log (x / (p 2).tv)))).const_mul (p 0).tv
      refine partial_ev ?_ hq ?_
      · filter_upwards [hc4.eventually_lt continuousAt_const hlt] with a ha t ht
        subst ht
        exact if_pos ha
      · rw [hval]; simp only [Sec4.small]; ring
  · have hgt : 1 / 100 < |(p 4).tv * Real.log (x / (p 2).tv)| := lt_of_le_of_ne (not_lt.mp hlt) hb.symm
    have hval : Sec4.value p x = _ := if_neg hlt
    have hgt : 1 / 100 < |(p 4).tv * Real.log (x / (p 2).tv)| := lt_of_le_of_ne (not_lt.mp hlt) hb.symm
    have h4 : (p 4).tv ≠ 0 := by
      intro h; rw [h] at hgt; norm_num at hgt
    obtain rfl | rfl | rfl | rfl | rfl : i = 0 ∨ i = 1 ∨ i = 2 ∨ i = 3 ∨ i = 4 := by omega
    · exact ⟨_, rfl, partial_norm (Real.exp (min (Sec4.large p x) maxExp)) (fun t => if_neg hlt) hN rfl⟩
    · refine ⟨_, rfl, partial_of (g := fun a => (p 0).tv * Real.exp (min ((a + (p 3).tv / (p 4).tv) *
        Real.log (x / (p 2).tv) + (p 3).tv / (p 4).tv / (p 4).tv *
          (1 - Real.exp ((p 4).tv * Real.log (x / (p 2).tv)))) maxExp)) (fun t => if_neg hlt)
        ((exmin maxExp ((((idd _).add_const _).mul_const _).add_const _) (hm hgt (by omega))).const_mul _) ?_⟩
      rw [hval]; simp only [Sec4.large]; ring
    · refine ⟨_, if_neg hlt, ?_⟩
      have hq : HasDerivAt (fun a => (p 0).tv * Real.exp (min (((p 1).tv + (p 3).tv / (p 4).tv) *
          Real.log (x / a) + (p 3).tv / (p 4).tv / (p 4).tv *
          (1 - Real.exp ((p 4).tv * Real.log (x / a)))) maxExp)) _ (p 2).tv :=
        (exmin maxExp ((hy.const_mul _).fun_add (((ex (hy.const_mul (p 4).tv)).const_sub 1).const_mul _))
          (hm hgt (by omega))).const_mul (p 0).tv
      refine partial_ev ?_ hq ?_
      · filter_upwards [continuousAt_const.eventually_lt hc2 hgt] with a ha t ht
        subst ht
        exact if_neg ha.le.not_gt
      · rw [hval]; simp only [Sec4.large]; field_simp
    · refine ⟨_, if_neg hlt, partial_of (g := fun a => (p 0).tv * Real.exp (min (((p 1).tv + a / (p 4).tv) *
        Real.log (x / (p 2).tv) + a / (p 4).tv / (p 4).tv *
          (1 - Real.exp ((p 4).tv * Real.log (x / (p 2).tv)))) maxExp)) (fun t => if_neg hlt)
        ((exmin maxExp (((((idd _).div_const _).const_add _).mul_const _).fun_add
          ((((idd _).div_const _).div_const _).mul_const _)) (hm hgt (by omega))).const_mul _) ?_⟩
      rw [hval]; simp only [Sec4.large]; field_simp
    · refine ⟨_, if_neg hlt, ?_⟩
      have ha := (idd (p 4).tv).mul_const (Real.log (x / (p 2).tv))
      have hd := cdiv (p 3).tv (idd (p 4).tv) h4
      have hq : HasDerivAt (fun a => (p 0).tv * Real.exp (min (((p 1).tv + (p 3).tv / a) *
          Real.log (x / (p 2).tv) + (p 3).tv / a / a *
          (1 - Real.exp (a * Real.log (x / (p 2).tv)))) maxExp)) _ (p 4).tv :=
        (exmin maxExp (((hd.const_add _).mul_const _).fun_add ((hd.fun_div (idd _) h4).fun_mul ((ex ha).const_sub 1)))
          (hm hgt (by omega))).const_mul (p 0).tv
      refine partial_ev ?_ hq ?_
      · filter_upwards [continuousAt_const.eventually_lt hc4 hgt] with a ha t ht
        subst ht
        exact if_neg ha.le.not_gt
      · rw [hval]; simp only [Sec4.large]; field_simp; ring

example : ∃ d, Sec4.deriv (fun i => ⟨[3, -2, 100, 1, 1].getD i 0, 1⟩) 4 100 = .ok d ∧
    Partial (fun q => Sec4.value q 100) (fun i => ⟨[3, -2, 100, 1, 1].getD i 0, 1⟩) 4 d :=
  C50_superExpCutoff4_partial (by norm_num) (by norm_num [P.tv]) (by norm_num [P.tv]) (by norm_num)
    (by norm_num [P.tv]) (by norm_num [P.tv])

end Verif.Spectra
