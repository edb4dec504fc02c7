import Verif.Spectra.Props
set_option linter.unusedSimpArgs false
set_option linter.unusedVariables false
set_option linter.unnecessarySeqFocus false
/-
C50, continued: smoothly broken power laws and power laws with super-exponential cutoff.
-/
namespace Verif.Spectra

theorem one_add_pow_pos {a : ℝ} (h : 0 < a) (b : ℝ) : 0 < 1 + a ^ b := by
  have := Real.rpow_pos_of_pos h b
  linarith

/-- One smooth break, `(1 + (x/b)^((i-j)/beta))^(-beta)`, by its parameters. -/
theorem brk_i {r be : ℝ} (hr : 0 < r) (j : ℝ) (i : ℝ) (hb : be ≠ 0) :
    HasDerivAt (fun a => (1 + r ^ ((a - j) / be)) ^ (-be))
      ((1 + r ^ ((i - j) / be)) ^ (-be) * (-(Real.log r * r ^ ((i - j) / be) / (1 + r ^ ((i - j) / be))))) i := by
  have h := powc (-be) ((cpow hr (((idd i).sub_const j).div_const be)).const_add 1) (one_add_pow_pos hr _)
  refine h.congr_deriv ?_
  have := (one_add_pow_pos hr ((i - j) / be)).ne'
  field_simp

theorem brk_j {r be : ℝ} (hr : 0 < r) (j : ℝ) (i : ℝ) (hb : be ≠ 0) :
    HasDerivAt (fun a => (1 + r ^ ((i - a) / be)) ^ (-be))
      ((1 + r ^ ((i - j) / be)) ^ (-be) * (Real.log r * r ^ ((i - j) / be) / (1 + r ^ ((i - j) / be)))) j := by
  have h := powc (-be) ((cpow hr (((idd j).const_sub i).div_const be)).const_add 1) (one_add_pow_pos hr _)
  refine h.congr_deriv ?_
  have := (one_add_pow_pos hr ((i - j) / be)).ne'
  field_simp

theorem brk_b {x b be : ℝ} (hx : 0 < x) (hb : 0 < b) (i j : ℝ) (hbe : be ≠ 0) :
    HasDerivAt (fun a => (1 + (x / a) ^ ((i - j) / be)) ^ (-be))
      ((1 + (x / b) ^ ((i - j) / be)) ^ (-be) * ((i - j) * (x / b) ^ ((i - j) / be) /
        (1 + (x / b) ^ ((i - j) / be)) / b)) b := by
  have hr := div_pos hx hb
  have h := powc (-be) ((powc ((i - j) / be) (cdiv x (idd b) hb.ne') hr).const_add 1) (one_add_pow_pos hr _)
  refine h.congr_deriv ?_
  have := (one_add_pow_pos hr ((i - j) / be)).ne'
  field_simp

theorem brk_beta {r be : ℝ} (hr : 0 < r) (i j : ℝ) (hb : be ≠ 0) :
    HasDerivAt (fun a => (1 + r ^ ((i - j) / a)) ^ (-a))
      ((1 + r ^ ((i - j) / be)) ^ (-be) * (-Real.log (1 + r ^ ((i - j) / be)) +
        (i - j) * Real.log r / be / (1 + r ^ (-(i - j) / be)))) be := by
  have h := pw ((cpow hr (cdiv (i - j) (idd be) hb)).const_add 1) (idd be).fun_neg (one_add_pow_pos hr _)
  refine h.congr_deriv ?_
  have h1 := (one_add_pow_pos hr ((i - j) / be)).ne'
  have h2 : r ^ (-(i - j) / be) = (r ^ ((i - j) / be))⁻¹ := by rw [neg_div, Real.rpow_neg hr.le]
  have h3 := (Real.rpow_pos_of_pos hr ((i - j) / be)).ne'
  rw [h2]
  have h4 : 1 + (r ^ ((i - j) / be))⁻¹ ≠ 0 := by
    have := Real.rpow_pos_of_pos hr ((i - j) / be)
    positivity
  generalize r ^ ((i - j) / be) = F at *
  have h5 : 1 + F⁻¹ = (1 + F) / F := by field_simp; ring
  rw [h5]
  field_simp

theorem C50_smoothBroken {p : Pars} {x : ℝ} (hx : 0 < x) (hN : (p 0).tv ≠ 0) (hS : 0 < (p 2).tv) (hB : 0 < (p 4).tv)
    (hbe : (p 5).tv ≠ 0) {i : Nat} (hi : i < 6) :
    ∃ d, Smooth.deriv p i x = .ok d ∧ Partial (fun q => Smooth.value q x) p i d := by
  have hpos : 0 < x / (p 2).tv := div_pos hx hS
  have hr : 0 < x / (p 4).tv := div_pos hx hB
  obtain rfl | rfl | rfl | rfl | rfl | rfl : i = 0 ∨ i = 1 ∨ i = 2 ∨ i = 3 ∨ i = 4 ∨ i = 5 := by omega
  · exact ⟨_, rfl, partial_norm ((x / (p 2).tv) ^ (p 1).tv *
      (1 + (x / (p 4).tv) ^ (((p 1).tv - (p 3).tv) / (p 5).tv)) ^ (-(p 5).tv))
      (fun t => by simp only [Smooth.value, setv, Function.update, P.tv]; simp; ring) hN rfl⟩
  · refine ⟨_, rfl, partial_of (g := fun a => (p 0).tv * (x / (p 2).tv) ^ a *
      (1 + (x / (p 4).tv) ^ ((a - (p 3).tv) / (p 5).tv)) ^ (-(p 5).tv)) (fun t => rfl)
      (((cpow hpos (idd _)).const_mul _).fun_mul (brk_i hr _ _ hbe)) ?_⟩
    simp only [Smooth.value]; ring
  · refine ⟨_, rfl, partial_of (g := fun a => (p 0).tv * (x / a) ^ (p 1).tv *
      (1 + (x / (p 4).tv) ^ (((p 1).tv - (p 3).tv) / (p 5).tv)) ^ (-(p 5).tv)) (fun t => rfl)
      (((powc _ (cdiv x (idd _) hS.ne') hpos).const_mul _).mul_const _) ?_⟩
    simp only [Smooth.value]; field_simp
  · refine ⟨_, rfl, partial_of (g := fun a => (p 0).tv * (x / (p 2).tv) ^ (p 1).tv *
      (1 + (x / (p 4).tv) ^ (((p 1).tv - a) / (p 5).tv)) ^ (-(p 5).tv)) (fun t => rfl)
      ((brk_j hr _ _ hbe).const_mul _) ?_⟩
    simp only [Smooth.value]; ring
  · refine ⟨_, rfl, partial_of (g := fun a => (p 0).tv * (x / (p 2).tv) ^ (p 1).tv *
      (1 + (x / a) ^ (((p 1).tv - (p 3).tv) / (p 5).tv)) ^ (-(p 5).tv)) (fun t => rfl)
      ((brk_b hx hB _ _ hbe).const_mul _) ?_⟩
    simp only [Smooth.value]; ring
  · refine ⟨_, rfl, partial_of (g := fun a => (p 0).tv * (x / (p 2).tv) ^ (p 1).tv *
      (1 + (x / (p 4).tv) ^ (((p 1).tv - (p 3).tv) / a)) ^ (-a)) (fun t => rfl)
      ((brk_beta hr _ _ hbe).const_mul _) ?_⟩
    simp only [Smooth.value]; ring

example : ∃ d, Smooth.deriv (fun i => ⟨[3, -2, 100, -3, 1000, 1].getD i 0, 2⟩) 5 500 = .ok d ∧
    Partial (fun q => Smooth.value q 500) (fun i => ⟨[3, -2, 100, -3, 1000, 1].getD i 0, 2⟩) 5 d :=
  C50_smoothBroken (by norm_num) (by norm_num [P.tv]) (by norm_num [P.tv]) (by norm_num [P.tv]) (by norm_num [P.tv])
    (by norm_num)

/-- Two smooth breaks.  The derivative by the middle index is right only for unit scale. -/
theorem C50_smoothDouble_partial {p : Pars} {x : ℝ} (hx : 0 < x) (hN : (p 0).tv ≠ 0) (hS : 0 < (p 2).tv)
    (hB : 0 < (p 4).tv) (hbe : (p 5).tv ≠ 0) (hB' : 0 < (p 7).tv) (hbe' : (p 8).tv ≠ 0) {i : Nat} (hi : i < 9)
    (h3 : i = 3 → (p 3).scale = 1) :
    ∃ d, Double.deriv p i x = .ok d ∧ Partial (fun q => Double.value q x) p i d := by
  have hpos : 0 < x / (p 2).tv := div_pos hx hS
  have hr : 0 < x / (p 4).tv := div_pos hx hB
  have hr' : 0 < x / (p 7).tv := div_pos hx hB'
  obtain rfl | rfl | rfl | rfl | rfl | rfl | rfl | rfl | rfl :
    i = 0 ∨ i = 1 ∨ i = 2 ∨ i = 3 ∨ i = 4 ∨ i = 5 ∨ i = 6 ∨ i = 7 ∨ i = 8 := by omega
  · exact ⟨_, rfl, partial_norm ((x / (p 2).tv) ^ (p 1).tv *
      (1 + (x / (p 4).tv) ^ (((p 1).tv - (p 3).tv) / (p 5).tv)) ^ (-(p 5).tv) *
      (1 + (x / (p 7).tv) ^ (((p 3).tv - (p 6).tv) / (p 8).tv)) ^ (-(p 8).tv))
      (fun t => by simp only [Double.value, setv, Function.update, P.tv]; simp; ring) hN rfl⟩
  · refine ⟨_, rfl, partial_of (g := fun a => (p 0).tv * (x / (p 2).tv) ^ a *
      (1 + (x / (p 4).tv) ^ ((a - (p 3).tv) / (p 5).tv)) ^ (-(p 5).tv) *
      (1 + (x / (p 7).tv) ^ (((p 3).tv - (p 6).tv) / (p 8).tv)) ^ (-(p 8).tv)) (fun t => rfl)
      ((((cpow hpos (idd _)).const_mul _).fun_mul (brk_i hr _ _ hbe)).mul_const _) ?_⟩
    simp only [Double.value]; ring
  · refine ⟨_, rfl, partial_of (g := fun a => (p 0).tv * (x / a) ^ (p 1).tv *
      (1 + (x / (p 4).tv) ^ (((p 1).tv - (p 3).tv) / (p 5).tv)) ^ (-(p 5).tv) *
      (1 + (x / (p 7).tv) ^ (((p 3).tv - (p 6).tv) / (p 8).tv)) ^ (-(p 8).tv)) (fun t => rfl)
      ((((powc _ (cdiv x (idd _) hS.ne') hpos).const_mul _).mul_const _).mul_const _) ?_⟩
    simp only [Double.value]; field_simp
  · refine ⟨_, rfl, partial_of (g := fun a => (p 0).tv * (x / (p 2).tv) ^ (p 1).tv *
      (1 + (x / (p 4).tv) ^ (((p 1).tv - a) / (p 5).tv)) ^ (-(p 5).tv) *
      (1 + (x / (p 7).tv) ^ ((a - (p 6).tv) / (p 8).tv)) ^ (-(p 8).tv)) (fun t => rfl)
      (((brk_j hr _ _ hbe).const_mul _).fun_mul (brk_i hr' _ _ hbe')) ?_⟩
    simp only [Double.value, h3 rfl]; ring
  · refine ⟨_, rfl, partial_of (g := fun a => (p 0).tv * (x / (p 2).tv) ^ (p 1).tv *
      (1 + (x / a) ^ (((p 1).tv - (p 3).tv) / (p 5).tv)) ^ (-(p 5).tv) *
      (1 + (x / (p 7).tv) ^ (((p 3).tv - (p 6).tv) / (p 8).tv)) ^ (-(p 8).tv)) (fun t => rfl)
      (((brk_b hx hB _ _ hbe).const_mul _).mul_const _) ?_⟩
    simp only [Double.value]; ring
  · refine ⟨_, rfl, partial_of (g := fun a => (p 0).tv * (x / (p 2).tv) ^ (p 1).tv *
      (1 + (x / (p 4).tv) ^ (((p 1).tv - (p 3).tv) / a)) ^ (-a) *
      (1 + (x / (p 7).tv) ^ (((p 3).tv - (p 6).tv) / (p 8).tv)) ^ (-(p 8).tv)) (fun t => rfl)
      (((brk_beta hr _ _ hbe).const_mul _).mul_const _) ?_⟩
    simp only [Double.value]; ring
  · refine ⟨_, rfl, partial_of (g := fun a => (p 0).tv * (x / (p 2).tv) ^ (p 1).tv *
      (1 + (x / (p 4).tv) ^ (((p 1).tv - (p 3).tv) / (p 5).tv)) ^ (-(p 5).tv) *
      (1 + (x / (p 7).tv) ^ (((p 3).tv - a) / (p 8).tv)) ^ (-(p 8).tv)) (fun t => rfl)
      ((brk_j hr' _ _ hbe').const_mul _) ?_⟩
    simp only [Double.value]; ring
  · refine ⟨_, rfl, partial_of (g := fun a => (p 0).tv * (x / (p 2).tv) ^ (p 1).tv *
      (1 + (x / (p 4).tv) ^ (((p 1).tv - (p 3).tv) / (p 5).tv)) ^ (-(p 5).tv) *
      (1 + (x / a) ^ (((p 3).tv - (p 6).tv) / (p 8).tv)) ^ (-(p 8).tv)) (fun t => rfl)
      ((brk_b hx hB' _ _ hbe').const_mul _) ?_⟩
    simp only [Double.value]; ring
  · refine ⟨_, rfl, partial_of (g := fun a => (p 0).tv * (x / (p 2).tv) ^ (p 1).tv *
      (1 + (x / (p 4).tv) ^ (((p 1).tv - (p 3).tv) / (p 5).tv)) ^ (-(p 5).tv) *
      (1 + (x / (p 7).tv) ^ (((p 3).tv - (p 6).tv) / a)) ^ (-a)) (fun t => rfl)
      ((brk_beta hr' _ _ hbe').const_mul _) ?_⟩
    simp only [Double.value]; ring

example : ∃ d, Double.deriv (fun i => ⟨[3, -2, 100, -3, 1000, 1, -4, 5000, 1].getD i 0, 1⟩) 3 500 = .ok d ∧
    Partial (fun q => Double.value q 500) (fun i => ⟨[3, -2, 100, -3, 1000, 1, -4, 5000, 1].getD i 0, 1⟩) 3 d :=
  C50_smoothDouble_partial (by norm_num) (by norm_num [P.tv]) (by norm_num [P.tv]) (by norm_num [P.tv])
    (by norm_num [P.tv]) (by norm_num [P.tv]) (by norm_num [P.tv]) (by norm_num) (by norm_num)

/-- In general the number reported for the middle index times its scale is the derivative. -/
theorem C50_smoothDouble_violates {p : Pars} {x : ℝ} (hx : 0 < x) (hN : (p 0).tv ≠ 0) (hS : 0 < (p 2).tv)
    (hB : 0 < (p 4).tv) (hbe : (p 5).tv ≠ 0) (hB' : 0 < (p 7).tv) (hbe' : (p 8).tv ≠ 0) :
    ∃ d, Double.deriv p 3 x = .ok d ∧ Partial (fun q => Double.value q x) p 3 (d * (p 3).scale) ∧
      ((p 3).scale ≠ 1 → d ≠ 0 → ¬ Partial (fun q => Double.value q x) p 3 d) := by
  have hr : 0 < x / (p 4).tv := div_pos hx hB
  have hr' : 0 < x / (p 7).tv := div_pos hx hB'
  have main : Partial (fun q => Double.value q x) p 3 (Double.value p x * (Real.log (x / (p 4).tv) *
      (x / (p 4).tv) ^ (((p 1).tv - (p 3).tv) / (p 5).tv) / (1 + (x / (p 4).tv) ^ (((p 1).tv - (p 3).tv) / (p 5).tv)) -
      Real.log (x / (p 7).tv) * (x / (p 7).tv) ^ (((p 3).tv - (p 6).tv) / (p 8).tv) /
        (1 + (x / (p 7).tv) ^ (((p 3).tv - (p 6).tv) / (p 8).tv))) * (p 3).scale) := by
    refine partial_of (g := fun a => (p 0).tv * (x / (p 2).tv) ^ (p 1).tv *
      (1 + (x / (p 4).tv) ^ (((p 1).tv - a) / (p 5).tv)) ^ (-(p 5).tv) *
      (1 + (x / (p 7).tv) ^ ((a - (p 6).tv) / (p 8).tv)) ^ (-(p 8).tv)) (fun t => rfl)
      (((brk_j hr _ _ hbe).const_mul _).fun_mul (brk_i hr' _ _ hbe')) ?_
    simp only [Double.value]; ring
  refine ⟨_, rfl, main, fun h1 h0 hp => ?_⟩
  have := main.unique hp
  exact h1 (mul_left_cancel₀ h0 (this.trans (mul_one _).symm))

end Verif.Spectra
