import Mathlib.Tactic.NormNum
import Mathlib.Tactic.Ring
import Mathlib.Tactic.Linarith
import Mathlib.Tactic.FieldSimp
import Mathlib.MeasureTheory.Measure.Lebesgue.Basic
import Mathlib.MeasureTheory.Integral.IntervalIntegral.FundThmCalculus
import Mathlib.MeasureTheory.Integral.IntegralEqImproper
import Mathlib.Analysis.SpecialFunctions.Integrals.Basic
import Verif.Radial.Model
import Verif.Radial.Spec
set_option linter.unusedSectionVars false
set_option linter.unusedSimpArgs false
set_option linter.unusedVariables false
namespace Verif.Radial
open Real MeasureTheory Set
open Verif.Radial.Spec

theorem disk_dist {x r φ s : ℝ} (hs : 0 < s) :
    disk (distance x r φ) s = if x ^ 2 + r ^ 2 - 2 * x * r * cos φ < s ^ 2 then (s * s * π)⁻¹ else 0 := by
  unfold disk distance
  simp only [div_lt_one hs, Real.sqrt_lt' hs]

/-- The angles under which a circle of radius `r` about the observer is inside the disk. -/
theorem angles {x r s : ℝ} (hx : 0 ≤ x) (hs : 0 < s) (hr : 0 < r) (h1 : x - s < r) (h2 : r < x + s) :
    (volume ({φ | x ^ 2 + r ^ 2 - 2 * x * r * cos φ < s ^ 2} ∩ Ioc (-π) π)).toReal =
      if 1 < (r + x) / s then 2 * arccos ((x ^ 2 + r ^ 2 - s ^ 2) / (2 * x * r)) else 2 * π := by
  by_cases hc : 1 < (r + x) / s
  · rw [if_pos hc]
    rw [one_lt_div hs] at hc
    have hx0 : 0 < x := by
      rcases lt_or_eq_of_le hx with h | h
      · exact h
      · subst h; linarith
    have hp : 0 < 2 * x * r := by positivity
    set c := (x ^ 2 + r ^ 2 - s ^ 2) / (2 * x * r) with hcd
    have hc1 : -1 ≤ c := by
      rw [hcd, le_div_iff₀ hp]; nlinarith
    have hc2 : c ≤ 1 := by
      rw [hcd, div_le_iff₀ hp]; nlinarith
    have hset : {φ | x ^ 2 + r ^ 2 - 2 * x * r * cos φ < s ^ 2} ∩ Ioc (-π) π = Ioo (-arccos c) (arccos c) := by
      have hcond : ∀ φ, x ^ 2 + r ^ 2 - 2 * x * r * cos φ < s ^ 2 ↔ c < cos φ := by
        intro φ
        rw [hcd, div_lt_iff₀ hp]
        constructor <;> intro h <;> linarith
      have key : ∀ φ, -π ≤ φ → φ ≤ π → (c < cos φ ↔ |φ| < arccos c) := by
        intro φ h3 h4
        rw [← cos_abs φ]
        have h5 : |φ| ≤ π := abs_le.2 ⟨h3, h4⟩
        constructor
        · intro h
          by_contra hn
          have := cos_le_cos_of_nonneg_of_le_pi (arccos_nonneg c) h5 (not_lt.1 hn)
          rw [cos_arccos hc1 hc2] at this
          linarith
        · intro h
          have := cos_lt_cos_of_nonneg_of_le_pi (abs_nonneg φ) (arccos_le_pi c) h
          rwa [cos_arccos hc1 hc2] at this
      ext φ
      simp only [mem_inter_iff, Set.mem_ofPred_eq, hcond, mem_Ioc, mem_Ioo]
      constructor
      · rintro ⟨h, h3, h4⟩
        exact abs_lt.1 ((key φ h3.le h4).1 h)
      · rintro ⟨h3, h4⟩
        have hπ := arccos_le_pi c
        have h5 : -π < φ := by linarith
        exact ⟨(key φ h5.le (by linarith)).2 (abs_lt.2 ⟨h3, h4⟩), h5, by linarith⟩
    rw [hset, Real.volume_Ioo, ENNReal.toReal_ofReal (by linarith [arccos_nonneg c])]
    ring
  · rw [if_neg hc]
    rw [one_lt_div hs, not_lt] at hc
    have hsub : Ioo (-π) π ⊆ {φ | x ^ 2 + r ^ 2 - 2 * x * r * cos φ < s ^ 2} ∩ Ioc (-π) π := by
      rintro φ ⟨h3, h4⟩
      refine ⟨?_, h3, h4.le⟩
      rw [Set.mem_ofPred_eq]
      have hcos : -1 < cos φ := by
        rw [← cos_abs, ← cos_pi]
        exact cos_lt_cos_of_nonneg_of_le_pi (abs_nonneg φ) le_rfl (abs_lt.2 ⟨h3, h4⟩)
      rcases lt_or_eq_of_le hx with hx0 | hx0
      · have : 0 < x * r := by positivity
        nlinarith
      · subst hx0
        nlinarith
    have h5 := measure_mono (μ := volume) hsub
    have h6 := measure_mono (μ := volume) (inter_subset_right (s := {φ | x ^ 2 + r ^ 2 - 2 * x * r * cos φ < s ^ 2})
      (t := Ioc (-π) π))
    rw [Real.volume_Ioo] at h5
    rw [Real.volume_Ioc] at h6
    rw [le_antisymm h6 h5, ENNReal.toReal_ofReal (by linarith [pi_pos])]
    ring

theorem measAngles (x r s : ℝ) : MeasurableSet {φ : ℝ | x ^ 2 + r ^ 2 - 2 * x * r * cos φ < s ^ 2} := by
  refine (isOpen_lt ?_ continuous_const).measurableSet
  exact continuous_const.sub (continuous_const.mul continuous_cos)

/-- The inner integral. -/
theorem inner_disk {x r s : ℝ} (hs : 0 < s) :
    (∫ φ in -π..π, disk (distance x r φ) s) =
      (volume ({φ | x ^ 2 + r ^ 2 - 2 * x * r * cos φ < s ^ 2} ∩ Ioc (-π) π)).toReal * (s * s * π)⁻¹ := by
  simp only [disk_dist hs]
  rw [intervalIntegral.integral_of_le (by linarith [pi_pos])]
  have : (fun φ => if x ^ 2 + r ^ 2 - 2 * x * r * cos φ < s ^ 2 then (s * s * π)⁻¹ else 0) =
      indicator {φ | x ^ 2 + r ^ 2 - 2 * x * r * cos φ < s ^ 2} (fun _ => (s * s * π)⁻¹) := by
    funext φ
    simp only [indicator, Set.mem_ofPred_eq]
  rw [this, integral_indicator (measAngles x r s), Measure.restrict_restrict (measAngles x r s), setIntegral_const,
    smul_eq_mul, Measure.real]

/-- Outside the range of integration no point is inside the disk. -/
theorem inner_out {x r s : ℝ} (hx : 0 ≤ x) (hs : 0 < s) (hr : 0 < r) (h : r ≤ x - s ∨ x + s ≤ r) :
    (∫ φ in -π..π, disk (distance x r φ) s) = 0 := by
  rw [inner_disk hs]
  have : {φ | x ^ 2 + r ^ 2 - 2 * x * r * cos φ < s ^ 2} = ∅ := by
    rw [Set.eq_empty_iff_forall_notMem]
    intro φ hφ
    rw [Set.mem_ofPred_eq] at hφ
    have h1 := cos_le_one φ
    have h2 : 0 ≤ x * r := by positivity
    have h3 : (x - r) ^ 2 < s ^ 2 := by nlinarith
    have := abs_lt.1 (abs_lt_of_sq_lt_sq h3 hs.le)
    rcases h with h | h <;> linarith [this.1, this.2]
  rw [this, empty_inter, measure_empty, ENNReal.toReal_zero, zero_mul]

end Verif.Radial
