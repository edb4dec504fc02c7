import Verif.Radial.Lemmas
import Mathlib.Analysis.SpecialFunctions.Trigonometric.Bounds
/-
C62: extended sources with a radial shape.
-/
set_option linter.unusedSectionVars false
set_option linter.unusedSimpArgs false
set_option linter.unusedVariables false
namespace Verif.Radial
open Real MeasureTheory Set
open Verif.Radial.Spec

/-- A disk seen with any response is the response averaged over the disk. -/
theorem C62_disk (fn : ℝ → ℝ) (x s : ℝ) (hx : 0 ≤ x) (hs : 0 < s) :
    diskConvolve fn x s = seen (fun δ => disk δ s) fn x := by
  unfold diskConvolve seen
  simp only []
  have hle : max (x - s) 0 ≤ x + s := max_le (by linarith) (by linarith)
  rw [intervalIntegral.integral_of_le hle]
  have hsub : Ioc (max (x - s) 0) (x + s) ⊆ Ioi 0 := fun r hr => lt_of_le_of_lt (le_max_right _ _) hr.1
  rw [setIntegral_eq_of_subset_of_forall_sdiff_eq_zero measurableSet_Ioi hsub]
  · rw [integral_Ioc_eq_integral_Ioo, integral_Ioc_eq_integral_Ioo]
    refine setIntegral_congr_fun measurableSet_Ioo fun r hr => ?_
    have hr0 : 0 < r := lt_of_le_of_lt (le_max_right _ _) hr.1
    have hr1 : x - s < r := lt_of_le_of_lt (le_max_left _ _) hr.1
    rw [inner_disk hs, angles hx hs hr0 hr1 hr.2]
    unfold diskIntegrand
    simp only []
    have := pi_pos
    field_simp
  · intro r hr
    have hr0 : 0 < r := hr.1
    rw [inner_out hx hs hr0, mul_zero]
    by_contra hcon
    push Not at hcon
    exact hr.2 ⟨max_lt hcon.1 hr0, hcon.2.le⟩

/-- The integral over the circle of the exponential is the modified Bessel function. -/
def IsScaledBessel (i0s : ℝ → ℝ) : Prop :=
  ∀ z, 0 ≤ z → 2 * π * i0s z = exp (-z) * ∫ φ in -π..π, exp (z * cos φ)

theorem inner_gauss {i0s : ℝ → ℝ} (hb : IsScaledBessel i0s) {x r s : ℝ} (hx : 0 ≤ x) (hr : 0 ≤ r) (hs : 0 < s) :
    (∫ φ in -π..π, gauss (distance x r φ) s) =
      i0s (x * r / s ^ 2) * exp (x * r / s ^ 2 - (x * x + r * r) / (2 * s ^ 2)) / s ^ 2 := by
  have hpt : ∀ φ, gauss (distance x r φ) s =
      1 / (2 * π * s * s) * exp (-(x * x + r * r) / (2 * s ^ 2)) * exp (x * r / s ^ 2 * cos φ) := by
    intro φ
    unfold gauss distance
    have hn : 0 ≤ x ^ 2 + r ^ 2 - 2 * x * r * cos φ := by
      have h1 := cos_le_one φ
      have h2 : 0 ≤ x * r := by positivity
      nlinarith [sq_nonneg (x - r)]
    rw [neg_mul, Real.mul_self_sqrt hn, mul_assoc (1 / (2 * π * s * s)), ← Real.exp_add]
    congr 2
    field_simp
    ring
  simp only [hpt]
  rw [intervalIntegral.integral_const_mul]
  have hz : 0 ≤ x * r / s ^ 2 := by positivity
  have h := hb _ hz
  have h' : (∫ φ in -π..π, exp (x * r / s ^ 2 * cos φ)) = exp (x * r / s ^ 2) * (2 * π * i0s (x * r / s ^ 2)) := by
    rw [h, ← mul_assoc, ← Real.exp_add, add_neg_cancel, Real.exp_zero, one_mul]
  rw [h', sub_eq_add_neg, Real.exp_add, neg_div]
  have := pi_pos
  field_simp

/-- A Gaussian seen with any response is the response averaged over the Gaussian, where the
response is cut at six standard deviations beyond the centre. -/
theorem C62_gauss_partial (i0s : ℝ → ℝ) (hb : IsScaledBessel i0s) (fn : ℝ → ℝ) (x s : ℝ) (hx : 0 ≤ x) (hs : 0 < s) :
    gaussConvolve i0s fn x s =
      seen (fun δ => gauss δ s) (fun r => if r ≤ x + 6 * s then fn r else 0) x := by
  unfold gaussConvolve seen
  simp only []
  rw [if_neg (not_lt.2 (le_max_right _ _)), zero_add, intervalIntegral.integral_of_le (by linarith)]
  have hsub : Ioc 0 (x + 6 * s) ⊆ Ioi 0 := fun r hr => hr.1
  rw [setIntegral_eq_of_subset_of_forall_sdiff_eq_zero measurableSet_Ioi hsub]
  · refine setIntegral_congr_fun measurableSet_Ioc fun r hr => ?_
    rw [inner_gauss hb hx hr.1.le hs, if_pos hr.2]
    unfold gaussIntegrand
    simp only []
    ring
  · intro r hr
    rw [if_neg, mul_zero, zero_mul]
    intro h
    exact hr.2 ⟨hr.1, h⟩

/-- Exact if the response vanishes there. -/
theorem C62_gauss (i0s : ℝ → ℝ) (hb : IsScaledBessel i0s) (fn : ℝ → ℝ) (x s : ℝ) (hx : 0 ≤ x) (hs : 0 < s)
    (h0 : ∀ r, x + 6 * s < r → fn r = 0) :
    gaussConvolve i0s fn x s = seen (fun δ => gauss δ s) fn x := by
  rw [C62_gauss_partial i0s hb fn x s hx hs]
  congr 1
  funext r
  split
  · rfl
  · rename_i h; exact (h0 r (not_le.1 h)).symm

/-! ### The flux of the shape -/

/-- The disk has unit flux in the plane. -/
theorem C62_disk_flux (s : ℝ) (hs : 0 < s) : total (fun δ => diskValue δ s) (180 / π) = 1 := by
  have hπ := pi_pos
  unfold total
  have hsub : Ioc 0 (s * π / 180) ⊆ Ioi 0 := fun r hr => hr.1
  have hpos : 0 < s * π / 180 := by positivity
  have hlt : ∀ δ, 180 / π * δ / s < 1 ↔ δ < s * π / 180 := by
    intro δ
    rw [div_lt_one hs, lt_div_iff₀ (by norm_num), div_mul_eq_mul_div, div_lt_iff₀ hπ, mul_comm 180 δ]
  rw [setIntegral_eq_of_subset_of_forall_sdiff_eq_zero measurableSet_Ioi hsub, integral_Ioc_eq_integral_Ioo]
  · have : ∀ δ ∈ Ioo 0 (s * π / 180), 2 * π * δ * diskValue (180 / π * δ) s =
        2 * (s * π / 180)⁻¹ ^ 2 * δ := by
      intro δ hδ
      unfold diskValue disk
      rw [if_pos ((hlt δ).2 hδ.2)]
      field_simp
    rw [setIntegral_congr_fun measurableSet_Ioo this, ← integral_Ioc_eq_integral_Ioo,
      ← intervalIntegral.integral_of_le hpos.le, intervalIntegral.integral_const_mul, integral_id]
    field_simp
    norm_num
  · intro δ hδ
    unfold diskValue disk
    simp only []
    rw [if_neg, zero_mul, mul_zero]
    rw [hlt]
    intro h
    exact hδ.2 ⟨hδ.1, h.le⟩

/-- On the sphere its flux is less: the normalisation is that of the plane. -/
theorem C62_sphere_violates (s : ℝ) (hs : 0 < s) (hs2 : s ≤ 180) :
    totalSphere (fun δ => diskValue δ s) (180 / π) =
      2 * (1 - cos (s * π / 180)) / (s * π / 180) ^ 2 ∧
    totalSphere (fun δ => diskValue δ s) (180 / π) < 1 := by
  have hπ := pi_pos
  have hpos : 0 < s * π / 180 := by positivity
  have hle : s * π / 180 ≤ π := by rw [div_le_iff₀ (by norm_num)]; nlinarith
  have hlt : ∀ δ, 180 / π * δ / s < 1 ↔ δ < s * π / 180 := by
    intro δ
    rw [div_lt_one hs, lt_div_iff₀ (by norm_num), div_mul_eq_mul_div, div_lt_iff₀ hπ, mul_comm 180 δ]
  have hval : totalSphere (fun δ => diskValue δ s) (180 / π) =
      2 * (1 - cos (s * π / 180)) / (s * π / 180) ^ 2 := by
    unfold totalSphere
    rw [intervalIntegral.integral_of_le hπ.le]
    have hsub : Ioc 0 (s * π / 180) ⊆ Ioc 0 π := Ioc_subset_Ioc_right hle
    rw [setIntegral_eq_of_subset_of_ae_sdiff_eq_zero measurableSet_Ioc.nullMeasurableSet hsub]
    · rw [integral_Ioc_eq_integral_Ioo]
      have : ∀ δ ∈ Ioo 0 (s * π / 180), 2 * π * sin δ * diskValue (180 / π * δ) s =
          2 * (s * π / 180)⁻¹ ^ 2 * sin δ := by
        intro δ hδ
        unfold diskValue disk
        rw [if_pos ((hlt δ).2 hδ.2)]
        field_simp
      rw [setIntegral_congr_fun measurableSet_Ioo this, ← integral_Ioc_eq_integral_Ioo,
        ← intervalIntegral.integral_of_le hpos.le, intervalIntegral.integral_const_mul, integral_sin, cos_zero]
      field_simp
    · refine Filter.Eventually.of_forall fun δ hδ => ?_
      unfold diskValue disk
      simp only []
      rw [if_neg, zero_mul, mul_zero]
      rw [hlt]
      intro h
      exact hδ.2 ⟨hδ.1.1, h.le⟩
  refine ⟨hval, ?_⟩
  rw [hval, div_lt_one (by positivity)]
  have := Real.one_sub_sq_div_two_lt_cos (x := s * π / 180) hpos.ne'
  linarith

/-- The Gaussian has unit flux in the plane. -/
theorem C62_gauss_flux (s : ℝ) (hs : 0 < s) : total (fun δ => gaussValue δ s) (180 / π) = 1 := by
  have hπ := pi_pos
  unfold total
  set w := s * π / 180 with hw
  have hw0 : 0 < w := by rw [hw]; positivity
  have hpt : ∀ δ, 2 * π * δ * gaussValue (180 / π * δ) s = δ / w ^ 2 * exp (-(δ ^ 2 / (2 * w ^ 2))) := by
    intro δ
    unfold gaussValue gauss
    have : -(180 / π * δ) * (180 / π * δ) / (2 * s * s) = -(δ ^ 2 / (2 * w ^ 2)) := by
      rw [hw]; field_simp
    rw [this, hw]
    field_simp
  simp only [hpt]
  have hd : ∀ δ ∈ Ioi (0 : ℝ), HasDerivAt (fun δ => -exp (-(δ ^ 2 / (2 * w ^ 2)))) (δ / w ^ 2 * exp (-(δ ^ 2 / (2 * w ^ 2)))) δ := by
    intro δ _
    have h1 : HasDerivAt (fun δ : ℝ => -(δ ^ 2 / (2 * w ^ 2))) (-(2 * δ / (2 * w ^ 2))) δ := by
      have := ((hasDerivAt_pow 2 δ).div_const (2 * w ^ 2)).fun_neg
      simpa using this
    have h2 := h1.exp.fun_neg
    refine h2.congr_deriv ?_
    field_simp
  have hc : ContinuousWithinAt (fun δ : ℝ => -exp (-(δ ^ 2 / (2 * w ^ 2)))) (Ici 0) 0 := by
    refine Continuous.continuousWithinAt ?_
    fun_prop
  have ht : Filter.Tendsto (fun δ : ℝ => -exp (-(δ ^ 2 / (2 * w ^ 2)))) Filter.atTop (nhds 0) := by
    rw [← neg_zero]
    refine Filter.Tendsto.neg (Real.tendsto_exp_neg_atTop_nhds_zero.comp ?_)
    exact (Filter.tendsto_pow_atTop (two_ne_zero)).atTop_div_const (by positivity)
  rw [integral_Ioi_of_hasDerivAt_of_nonneg hc hd (fun δ hδ => ?_) ht]
  · simp
  · have : (0 : ℝ) < δ := hδ
    positivity

/-- The hypothesis on the Bessel function defines it. -/
example : ∃ i0s, IsScaledBessel i0s := by
  refine ⟨fun z => exp (-z) * (∫ φ in -π..π, exp (z * cos φ)) / (2 * π), fun z _ => ?_⟩
  have := pi_pos
  field_simp

/-- A disk of one degree and a Gaussian of one degree seen half a degree from the centre. -/
example : diskConvolve (fun r => exp (-r)) (1 / 2) 1 = seen (fun δ => disk δ 1) (fun r => exp (-r)) (1 / 2) ∧
    total (fun δ => diskValue δ 1) (180 / π) = 1 ∧ total (fun δ => gaussValue δ 1) (180 / π) = 1 :=
  ⟨C62_disk _ _ _ (by norm_num) (by norm_num), C62_disk_flux 1 (by norm_num), C62_gauss_flux 1 (by norm_num)⟩

end Verif.Radial
