import Verif.Priors.Model
import Verif.Priors.Spec
import Verif.Spectra.Lemmas
import Mathlib.Tactic.NormNum
import Mathlib.Tactic.LinearCombination
set_option linter.unusedSimpArgs false
set_option linter.unusedVariables false
/-
C53: Gaussian priors.
-/
namespace Verif.Priors
open Verif.Spectra

theorem sq_deriv (mean x : ℝ) : HasDerivAt (fun y : ℝ => -(y - mean) * (y - mean)) (-2 * (x - mean)) x := by
  have h := (idd x).sub_const mean
  refine (h.fun_neg.fun_mul h).congr_deriv ?_
  ring

/-- The slope in the argument, which a fit uses for a prior, is right for every setting. -/
theorem C53_slope (L : ℝ) (p : Pars) (x : ℝ) :
    HasDerivAt (LogGaussian.value L p) (LogGaussian.derivative p x) x ∧
    HasDerivAt (GaussianError.value p) (GaussianError.derivative p x) x := by
  constructor
  · refine (((((sq_deriv (p 1).tv x).div_const 2).div_const (p 2).tv).div_const (p 2).tv).sub_const L
      |>.const_mul (p 0).tv).congr_deriv ?_
    simp only [LogGaussian.derivative]; ring
  · refine ((((sq_deriv (p 1).tv x).div_const (2 * (p 2).tv * (p 2).tv)).add_const (p 3).tv).mul_const
      (p 0).tv).congr_deriv ?_
    simp only [GaussianError.derivative]
    by_cases hs : (p 2).tv = 0
    · simp [hs]
    · field_simp

example : HasDerivAt (LogGaussian.value 1 (fun i => ⟨[1, 2, 3].getD i 0, 1⟩)) (-1 / 3) 5 := by
  have := (C53_slope 1 (fun i => ⟨[1, 2, 3].getD i 0, 1⟩) 5).1
  convert this using 1
  norm_num [LogGaussian.derivative, P.tv]

/-- As constructed, a `LogGaussian` of unit norm is the logarithm of the density of the normal
distribution, as long as Sigma keeps its value. -/
theorem C53_density_partial {p : Pars} (hs : 0 < (p 2).tv) (hn : (p 0).tv = 1) (x : ℝ) :
    LogGaussian.value (LogGaussian.logTerm (p 2).tv) p x = Real.log (gaussian (p 1).tv (p 2).tv x) := by
  have h2 : 0 < Real.sqrt (2 * Real.pi) := Real.sqrt_pos.mpr (by positivity)
  rw [gaussian, Real.log_mul (by positivity) (Real.exp_pos _).ne', Real.log_exp, one_div, Real.log_inv]
  simp only [LogGaussian.value, LogGaussian.logTerm, hn]
  field_simp
  ring

example (x : ℝ) : LogGaussian.value (LogGaussian.logTerm 3) (fun i => ⟨[1, 2, 3].getD i 0, 1⟩) x = Real.log (gaussian 2 3 x) := by
  have := C53_density_partial (p := fun i => ⟨[1, 2, 3].getD i 0, 1⟩) (by norm_num [P.tv]) (by norm_num [P.tv]) x
  simpa [P.tv] using this

/-- After Sigma has been given another value it is not, at any argument. -/
theorem C53_density_violates {p : Pars} {sigma : ℝ} (hs : 0 < (p 2).tv) (hs' : 0 < sigma) (hne : sigma ≠ (p 2).tv)
    (hn : (p 0).tv = 1) (x : ℝ) :
    LogGaussian.value (LogGaussian.logTerm sigma) p x ≠ Real.log (gaussian (p 1).tv (p 2).tv x) := by
  rw [← C53_density_partial hs hn]
  have h2 : 0 < Real.sqrt (2 * Real.pi) := Real.sqrt_pos.mpr (by positivity)
  simp only [LogGaussian.value, LogGaussian.logTerm, hn, one_mul]
  intro h
  have h3 := sub_right_injective h
  have := Real.log_injOn_pos (Set.mem_Ioi.mpr (mul_pos h2 hs')) (Set.mem_Ioi.mpr (mul_pos h2 hs)) h3
  exact hne (mul_left_cancel₀ h2.ne' this)

example : LogGaussian.value (LogGaussian.logTerm 1) (fun i => ⟨[1, 2, 3].getD i 0, 1⟩) 5 ≠ Real.log (gaussian 2 3 5) := by
  have := C53_density_violates (p := fun i => ⟨[1, 2, 3].getD i 0, 1⟩) (sigma := 1) (by norm_num [P.tv]) one_pos
    (by norm_num [P.tv]) (by norm_num [P.tv]) 5
  simpa [P.tv] using this

/-! ### Derivatives by the parameters -/

theorem lg_mean (L : ℝ) (p : Pars) (x : ℝ) : Partial (fun q => LogGaussian.value L q x) p 1
    ((p 0).tv * (x - (p 1).tv) / ((p 2).tv * (p 2).tv) * (p 1).scale) := by
  have h := (idd (p 1).tv).const_sub x
  refine partial_of (g := fun a => (p 0).tv * (-(x - a) * (x - a) / 2 / (p 2).tv / (p 2).tv - L)) (fun t => rfl)
    ((((((h.fun_neg.fun_mul h).div_const 2).div_const (p 2).tv).div_const (p 2).tv).sub_const L).const_mul (p 0).tv) ?_
  by_cases hs : (p 2).tv = 0
  · simp [hs]
  · field_simp; ring

theorem lg_sigma (L : ℝ) (p : Pars) (x : ℝ) (hs : (p 2).tv ≠ 0) : Partial (fun q => LogGaussian.value L q x) p 2
    ((p 0).tv * (x - (p 1).tv) ^ 2 / (p 2).tv ^ 3 * (p 2).scale) := by
  refine partial_of (g := fun a => (p 0).tv * (-(x - (p 1).tv) * (x - (p 1).tv) / 2 / a / a - L)) (fun t => rfl)
    ((((cdiv _ (idd _) hs).fun_div (idd _) hs).sub_const L).const_mul (p 0).tv) ?_
  field_simp
  ring

theorem ge_sigma (p : Pars) (x : ℝ) (hs : (p 2).tv ≠ 0) : Partial (fun q => GaussianError.value q x) p 2
    ((p 0).tv * (x - (p 1).tv) ^ 2 / (p 2).tv ^ 3 * (p 2).scale) := by
  refine partial_of (g := fun a => (-(x - (p 1).tv) * (x - (p 1).tv) / (2 * a * a) + (p 3).tv) * (p 0).tv) (fun t => rfl)
    (((cdiv _ (((idd _).const_mul 2).fun_mul (idd _)) (by positivity)).add_const (p 3).tv).mul_const (p 0).tv) ?_
  field_simp
  ring

/-- With unit scale, the derivatives by Norm (both functions), and by Mean and Offset
(`GaussianError`) are right. -/
theorem C53_derivatives_partial (L : ℝ) (p : Pars) (x : ℝ) (hN : (p 0).tv ≠ 0) (hs : ∀ i, (p i).scale = 1) :
    (∃ d, LogGaussian.deriv L p 0 x = .ok d ∧ Partial (fun q => LogGaussian.value L q x) p 0 d) ∧
    ∀ i, i ≠ 2 → i < 4 → ∃ d, GaussianError.deriv p i x = .ok d ∧ Partial (fun q => GaussianError.value q x) p i d := by
  refine ⟨⟨_, rfl, partial_norm (-(x - (p 1).tv) * (x - (p 1).tv) / 2 / (p 2).tv / (p 2).tv - L) (fun t => rfl) hN
    (by rw [hs, mul_one])⟩, fun i h2 h4 => ?_⟩
  obtain rfl | rfl | rfl : i = 0 ∨ i = 1 ∨ i = 3 := by omega
  · refine ⟨_, rfl, partial_norm (-(x - (p 1).tv) * (x - (p 1).tv) / (2 * (p 2).tv * (p 2).tv) + (p 3).tv)
      (fun t => mul_comm _ _) hN (by rw [hs, mul_one])⟩
  · have h := (idd (p 1).tv).const_sub x
    refine ⟨_, rfl, partial_of (g := fun a => (-(x - a) * (x - a) / (2 * (p 2).tv * (p 2).tv) + (p 3).tv) * (p 0).tv)
      (fun t => rfl) ((((h.fun_neg.fun_mul h).div_const _).add_const _).mul_const _) ?_⟩
    rw [hs]
    by_cases hz : (p 2).tv = 0
    · simp [hz]
    · field_simp; ring
  · refine ⟨_, rfl, partial_of (g := fun a => (-(x - (p 1).tv) * (x - (p 1).tv) / (2 * (p 2).tv * (p 2).tv) + a) * (p 0).tv)
      (fun t => rfl) (((idd _).const_add _).mul_const _) ?_⟩
    rw [hs, one_mul, mul_one]

example : ∃ d, GaussianError.deriv (fun i => ⟨[2, 1, 3, 4].getD i 0, 1⟩) 1 5 = .ok d ∧
    Partial (fun q => GaussianError.value q 5) (fun i => ⟨[2, 1, 3, 4].getD i 0, 1⟩) 1 d :=
  (C53_derivatives_partial 0 (fun i => ⟨[2, 1, 3, 4].getD i 0, 1⟩) 5 (by norm_num [P.tv]) (fun _ => rfl)).2 1
    (by decide) (by decide)

theorem not_partial {f : Pars → ℝ} {p : Pars} {i : Nat} {d e : ℝ} (h : Partial f p i e) (hne : d ≠ e) : ¬ Partial f p i d :=
  fun hc => hne (HasDerivAt.unique hc h)

/-- The derivative of `LogGaussian` by Mean is wrong except at `x = 0`; that by Sigma is wrong
except where `5 (x - mean)² = -6 sigma²`, that is, everywhere; the one of `GaussianError` by
Sigma is wrong except at the mean.  Unit scales. -/
theorem C53_derivatives_violates (L : ℝ) (p : Pars) (x : ℝ) (hN : (p 0).tv ≠ 0) (hσ : (p 2).tv ≠ 0)
    (hs : ∀ i, (p i).scale = 1) :
    (x ≠ 0 → ∃ d, LogGaussian.deriv L p 1 x = .ok d ∧ ¬ Partial (fun q => LogGaussian.value L q x) p 1 d) ∧
    (∃ d, LogGaussian.deriv L p 2 x = .ok d ∧ ¬ Partial (fun q => LogGaussian.value L q x) p 2 d) ∧
    (x ≠ (p 1).tv → ∃ d, GaussianError.deriv p 2 x = .ok d ∧ ¬ Partial (fun q => GaussianError.value q x) p 2 d) := by
  refine ⟨fun hx => ⟨_, rfl, not_partial (lg_mean L p x) fun h => ?_⟩, ⟨_, rfl, not_partial (lg_sigma L p x hσ) fun h => ?_⟩,
    fun hx => ⟨_, rfl, not_partial (ge_sigma p x hσ) fun h => ?_⟩⟩
  · rw [hs, mul_one, div_div, div_left_inj' (mul_ne_zero hσ hσ)] at h
    have : (p 0).tv * x = 0 := by linear_combination -h
    exact (mul_ne_zero hN hx) this
  · rw [hs, mul_one] at h
    have h3 : (p 2).tv ^ 3 ≠ 0 := pow_ne_zero 3 hσ
    have e : (p 0).tv * ((x - (p 1).tv) * (x - (p 1).tv) / 6 / ((p 2).tv * (p 2).tv * (p 2).tv) - 1 / (p 2).tv) =
        (p 0).tv * ((x - (p 1).tv) ^ 2 / 6 - (p 2).tv ^ 2) / (p 2).tv ^ 3 := by field_simp
    rw [e, div_left_inj' h3] at h
    have h4 := mul_left_cancel₀ hN h
    have h5 : 0 < (p 2).tv ^ 2 := by positivity
    have h6 := sq_nonneg (x - (p 1).tv)
    linarith
  · rw [hs, mul_one] at h
    have h3 : (p 2).tv ^ 3 ≠ 0 := pow_ne_zero 3 hσ
    have e : (p 0).tv * (x - (p 1).tv) * (x - (p 1).tv) / (6 * ((p 2).tv * (p 2).tv * (p 2).tv)) =
        ((p 0).tv * (x - (p 1).tv) ^ 2 / 6) / (p 2).tv ^ 3 := by field_simp
    rw [e, div_left_inj' h3] at h
    have h4 : (p 0).tv * (x - (p 1).tv) ^ 2 ≠ 0 := mul_ne_zero hN (pow_ne_zero 2 (sub_ne_zero.mpr hx))
    exact h4 (by linear_combination (-6/5) * h)

example : ∃ d, GaussianError.deriv (fun i => ⟨[2, 1, 3, 4].getD i 0, 1⟩) 2 5 = .ok d ∧
    ¬ Partial (fun q => GaussianError.value q 5) (fun i => ⟨[2, 1, 3, 4].getD i 0, 1⟩) 2 d :=
  (C53_derivatives_violates 0 (fun i => ⟨[2, 1, 3, 4].getD i 0, 1⟩) 5 (by norm_num [P.tv]) (by norm_num [P.tv])
    (fun _ => rfl)).2.2 (by norm_num [P.tv])

/-- With another scale than one, no derivative by a parameter takes it into account; for
instance the one by Norm. -/
theorem C53_scale_violates (L : ℝ) (p : Pars) (x : ℝ) (hN : (p 0).tv ≠ 0) (hs : (p 0).scale ≠ 1)
    (hv : LogGaussian.value L p x ≠ 0) :
    ∃ d, LogGaussian.deriv L p 0 x = .ok d ∧ ¬ Partial (fun q => LogGaussian.value L q x) p 0 d := by
  refine ⟨_, rfl, not_partial (partial_norm (-(x - (p 1).tv) * (x - (p 1).tv) / 2 / (p 2).tv / (p 2).tv - L) (fun t => rfl) hN rfl)
    fun h => ?_⟩
  have h1 : LogGaussian.value L p x / (p 0).tv ≠ 0 := div_ne_zero hv hN
  exact hs (mul_left_cancel₀ h1 (by rw [mul_one]; exact h.symm))

example : ∃ d, LogGaussian.deriv 0 (fun i => ⟨[2, 1, 3].getD i 0, 10⟩) 0 5 = .ok d ∧
    ¬ Partial (fun q => LogGaussian.value 0 q 5) (fun i => ⟨[2, 1, 3].getD i 0, 10⟩) 0 d :=
  C53_scale_violates 0 (fun i => ⟨[2, 1, 3].getD i 0, 10⟩) 5 (by norm_num [P.tv]) (by norm_num)
    (by norm_num [LogGaussian.value, P.tv])

end Verif.Priors
