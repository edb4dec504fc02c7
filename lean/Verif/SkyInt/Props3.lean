import Verif.SkyInt.Props2
/-
C82: the response of an event is the integral over the region.
-/
set_option linter.unusedSimpArgs false
set_option linter.unusedVariables false
namespace Verif.SkyInt
open Real Spec MeasureTheory

section
variable {g : ℝ → ℝ → ℝ} {B : ℝ}

theorem inner_integrable (hm : Measurable (fun p : ℝ × ℝ => g p.1 p.2)) (hb : ∀ x y, |g x y| ≤ B)
    (y a b : ℝ) : IntervalIntegrable (fun x => g x y) volume a b := by
  have h1 : Measurable (fun x => g x y) := hm.comp (measurable_id.prodMk measurable_const)
  rw [intervalIntegrable_iff]
  have : IsFiniteMeasure (volume.restrict (Set.uIoc a b)) := by unfold Set.uIoc; infer_instance
  exact Integrable.of_bound h1.aestronglyMeasurable B (Filter.Eventually.of_forall (fun x => hb x y))

theorem outer_measurable (hm : Measurable (fun p : ℝ × ℝ => g p.1 p.2)) (a b : ℝ) :
    StronglyMeasurable (fun y => ∫ x in a..b, g x y) := by
  have h1 : StronglyMeasurable (fun p : ℝ × ℝ => g p.2 p.1) :=
    (hm.comp measurable_swap).stronglyMeasurable
  have h2 := h1.integral_prod_right' (ν := volume.restrict (Set.Ioc a b))
  have h3 := h1.integral_prod_right' (ν := volume.restrict (Set.Ioc b a))
  exact h2.sub h3

theorem outer_integrable (hm : Measurable (fun p : ℝ × ℝ => g p.1 p.2)) (hb : ∀ x y, |g x y| ≤ B)
    (a b p q : ℝ) : IntervalIntegrable (fun y => ∫ x in a..b, g x y) volume p q := by
  rw [intervalIntegrable_iff]
  have : IsFiniteMeasure (volume.restrict (Set.uIoc p q)) := by unfold Set.uIoc; infer_instance
  refine Integrable.of_bound (outer_measurable hm a b).aestronglyMeasurable (B * |b - a|)
    (Filter.Eventually.of_forall (fun y => ?_))
  exact intervalIntegral.norm_integral_le_of_norm_le_const (fun x _ => hb x y)

theorem double_add (hm : Measurable (fun p : ℝ × ℝ => g p.1 p.2)) (hb : ∀ x y, |g x y| ≤ B)
    (a b c p q : ℝ) :
    (∫ y in p..q, ∫ x in b..c, g x y) + (∫ y in p..q, ∫ x in a..b, g x y) =
      ∫ y in p..q, ∫ x in a..c, g x y := by
  rw [← intervalIntegral.integral_add (outer_integrable hm hb b c p q) (outer_integrable hm hb a b p q)]
  congr 1
  funext y
  rw [add_comm, intervalIntegral.integral_add_adjacent_intervals (inner_integrable hm hb y a b)
    (inner_integrable hm hb y b c)]

end

/-- C82: splitting the integral at the containment radius of the point spread function does not
change it, wherever that radius is: the response is the integral of the product of source and
response over the distances from the limits of the map or of the field of view.  For bounded
measurable products and exact quadrature. -/
theorem C82_split_partial (F : V3 → ℝ) (ra dec mu2s mumx B : ℝ) (l : Limits)
    (hm : Measurable (fun p : ℝ × ℝ => value F (Rot.make ra dec) p.1 p.2)) (hb : ∀ d, |F d| ≤ B) :
    response F (Rot.make ra dec) mu2s mumx l =
      ∫ phi in l.phimin..l.phimax, ∫ mu in (max l.mumin mumx)..l.mumax,
        value F (Rot.make ra dec) mu phi := by
  have hB : 0 ≤ B := (abs_nonneg _).trans (hb ⟨0, 0, 0⟩)
  have hv : ∀ mu phi, |value F (Rot.make ra dec) mu phi| ≤ B := by
    intro mu phi
    unfold value
    split
    · simpa using hB
    · exact hb _
  unfold response
  simp only
  split
  · rfl
  · unfold integrate2
    exact double_add hm hv _ _ _ _ _

/-- The integrand is the product at the direction of the integration variables, except at two
points. -/
theorem value_eq (F : V3 → ℝ) {ra dec mu phi : ℝ} (h1 : -1 ≤ mu) (h2 : mu ≤ 1) (h0 : mu ≠ 0) :
    value F (Rot.make ra dec) mu phi = F (around ra dec mu phi) := by
  unfold value
  rw [srcDir_eq h1 h2 (fun h => h0 h.1)]

/-- C82: if the event is in the map and the product vanishes outside the limits, the response is
the integral over all directions up to the largest separation. -/
theorem C82_inside_partial (F : V3 → ℝ) (m : SkyMap) (origin : V3) (ra dec mu2s mumx B : ℝ)
    (l : Limits) (hl : limits m origin ra dec = some l) (hi : m.inside (sphere ra dec) = true)
    (hx : -1 ≤ mumx) (hx1 : mumx ≤ 1)
    (hm : Measurable (fun p : ℝ × ℝ => value F (Rot.make ra dec) p.1 p.2)) (hb : ∀ d, |F d| ≤ B)
    (hl1 : l.mumin ≤ 1) (hz : ∀ d, prod d (centre ra dec) < l.mumin → F d = 0) :
    response F (Rot.make ra dec) mu2s mumx l =
      ∫ phi in (0)..(2 * π), ∫ mu in mumx..1, F (around ra dec mu phi) := by
  have hB : 0 ≤ B := (abs_nonneg _).trans (hb ⟨0, 0, 0⟩)
  have hv : ∀ mu phi, |value F (Rot.make ra dec) mu phi| ≤ B := by
    intro mu phi
    unfold value
    split
    · simpa using hB
    · exact hb _
  rw [C82_split_partial F ra dec mu2s mumx B l hm hb]
  have e : l.mumax = 1 ∧ l.phimin = 0 ∧ l.phimax = 2 * π := by
    unfold limits at hl
    simp only [hi, if_true] at hl
    cases hl
    exact ⟨rfl, rfl, rfl⟩
  obtain ⟨e1, e2, e3⟩ := e
  rw [e1, e2, e3]
  have hval : ∀ phi a, -1 ≤ a → a ≤ 1 → ∫ mu in a..1, value F (Rot.make ra dec) mu phi =
      ∫ mu in a..1, F (around ra dec mu phi) := by
    intro phi a ha ha1
    apply intervalIntegral.integral_congr_ae
    have : ∀ᵐ x : ℝ, x ≠ 0 := by
      rw [ae_iff]
      simp
    filter_upwards [this] with x hx0 hx'
    rw [Set.uIoc_of_le ha1] at hx'
    exact value_eq F (by linarith [hx'.1]) hx'.2 hx0
  congr 1
  funext phi
  rw [← hval phi mumx hx hx1]
  by_cases hle : l.mumin ≤ mumx
  · rw [max_eq_right hle]
  · have hlt := not_le.1 hle
    rw [max_eq_left hlt.le]
    have hadd := intervalIntegral.integral_add_adjacent_intervals
      (inner_integrable (g := fun mu phi => value F (Rot.make ra dec) mu phi) hm hv phi mumx l.mumin)
      (inner_integrable hm hv phi l.mumin 1)
    rw [← hadd]
    have hzero : ∫ mu in mumx..l.mumin, value F (Rot.make ra dec) mu phi = 0 := by
      have : ∫ mu in mumx..l.mumin, value F (Rot.make ra dec) mu phi =
          ∫ mu in mumx..l.mumin, (0 : ℝ) := by
        apply intervalIntegral.integral_congr_ae
        have hne : ∀ᵐ x : ℝ, x ≠ 0 := by rw [ae_iff]; simp
        have hne' : ∀ᵐ x : ℝ, x ≠ l.mumin := by rw [ae_iff]; simp
        filter_upwards [hne, hne'] with x hx0 hxl hx'
        rw [Set.uIoc_of_le hlt.le] at hx'
        unfold value
        split
        · rfl
        · rename_i d hd
          rw [srcDir_eq (by linarith [hx'.1]) (hx'.2.trans hl1) (fun h => hx0 h.1)] at hd
          cases hd
          apply hz
          have := around_dot ra dec x phi
          rw [dot_eq, sphere_centre] at this
          rw [this]
          exact lt_of_le_of_ne hx'.2 hxl
      rw [this, intervalIntegral.integral_zero]
    rw [hzero, zero_add]

/-- C82: the response is not negative if the product is not, provided the limits are in
order. -/
theorem C82_nonneg_partial (F : V3 → ℝ) (ra dec mu2s mumx B : ℝ) (l : Limits)
    (hm : Measurable (fun p : ℝ × ℝ => value F (Rot.make ra dec) p.1 p.2)) (hb : ∀ d, |F d| ≤ B)
    (h0 : ∀ d, 0 ≤ F d) (h1 : max l.mumin mumx ≤ l.mumax) (h2 : l.phimin ≤ l.phimax) :
    0 ≤ response F (Rot.make ra dec) mu2s mumx l := by
  rw [C82_split_partial F ra dec mu2s mumx B l hm hb]
  refine intervalIntegral.integral_nonneg h2 (fun phi _ => intervalIntegral.integral_nonneg h1 (fun mu _ => ?_))
  unfold value
  split
  · exact le_rfl
  · exact h0 _

/-- C82 fails for a map farther from the event than the largest separation: the lower limit is
then above the upper one and whatever is between them counts with the wrong sign. -/
theorem C82_sign_violates (F : V3 → ℝ) (ra dec mu2s mumx B : ℝ) (l : Limits)
    (hm : Measurable (fun p : ℝ × ℝ => value F (Rot.make ra dec) p.1 p.2)) (hb : ∀ d, |F d| ≤ B)
    (h1 : l.mumin ≤ l.mumax) (h2 : l.mumax < mumx) :
    response F (Rot.make ra dec) mu2s mumx l =
      -∫ phi in l.phimin..l.phimax, ∫ mu in l.mumax..mumx, value F (Rot.make ra dec) mu phi := by
  rw [C82_split_partial F ra dec mu2s mumx B l hm hb, max_eq_right (by linarith),
    ← intervalIntegral.integral_neg]
  congr 1
  funext phi
  rw [intervalIntegral.integral_symm]

/-- A constant product is measurable and bounded. -/
theorem const_measurable (R : Rot) (c : ℝ) :
    Measurable (fun p : ℝ × ℝ => value (fun _ => c) R p.1 p.2) := by
  have e : (fun p : ℝ × ℝ => value (fun _ => c) R p.1 p.2) =
      fun p => if √(1 - (1 - p.1 * p.1) * sin p.2 * sin p.2) = 0 then 0 else c := by
    funext p
    unfold value srcDir
    simp only
    by_cases h : √(1 - (1 - p.1 * p.1) * sin p.2 * sin p.2) = 0
    · rw [if_pos h, if_pos h]
    · rw [if_neg h, if_neg h]
  rw [e]
  refine Measurable.ite ?_ measurable_const measurable_const
  have hc : Continuous (fun p : ℝ × ℝ => √(1 - (1 - p.1 * p.1) * sin p.2 * sin p.2)) := by
    fun_prop
  exact hc.measurable (measurableSet_singleton 0)

/-- C82: for instance, a source that extends over all of the gap, as its last half pixel does,
gives a negative response. -/
theorem C82_negative_violates (ra dec mu2s mumx c : ℝ) (l : Limits) (hc : 0 < c)
    (h0 : -1 ≤ l.mumin) (h1 : l.mumin ≤ l.mumax) (h2 : l.mumax < mumx) (h3 : mumx ≤ 1)
    (h4 : l.phimin < l.phimax) :
    response (fun _ => c) (Rot.make ra dec) mu2s mumx l =
      -((l.phimax - l.phimin) * ((mumx - l.mumax) * c)) ∧
    response (fun _ => c) (Rot.make ra dec) mu2s mumx l < 0 := by
  have e : response (fun _ => c) (Rot.make ra dec) mu2s mumx l =
      -((l.phimax - l.phimin) * ((mumx - l.mumax) * c)) := by
    rw [C82_sign_violates (fun _ => c) ra dec mu2s mumx |c| l (const_measurable _ c) (fun _ => le_rfl) h1 h2]
    have hin : ∀ phi, ∫ mu in l.mumax..mumx, value (fun _ => c) (Rot.make ra dec) mu phi =
        (mumx - l.mumax) * c := by
      intro phi
      have : ∫ mu in l.mumax..mumx, value (fun _ => c) (Rot.make ra dec) mu phi =
          ∫ mu in l.mumax..mumx, c := by
        apply intervalIntegral.integral_congr_ae
        have hne : ∀ᵐ x : ℝ, x ≠ 0 := by rw [ae_iff]; simp
        filter_upwards [hne] with x hx0 hx'
        rw [Set.uIoc_of_le h2.le] at hx'
        exact value_eq _ (by linarith [hx'.1]) (by linarith [hx'.2]) hx0
      rw [this, intervalIntegral.integral_const, smul_eq_mul]
    simp only [hin]
    rw [intervalIntegral.integral_const, smul_eq_mul]
  refine ⟨e, ?_⟩
  rw [e]
  have : 0 < (l.phimax - l.phimin) * ((mumx - l.mumax) * c) :=
    mul_pos (by linarith) (mul_pos (by linarith) hc)
  linarith

/-- Limits in order, and limits that are not. -/
example : max (0 : ℝ) (1 / 2) ≤ 1 := by norm_num
example : ∃ l : Limits, -1 ≤ l.mumin ∧ l.mumin ≤ l.mumax ∧ l.mumax < 9 / 10 ∧ l.phimin < l.phimax :=
  ⟨⟨0, 1 / 2, 0, 1⟩, by norm_num, by norm_num, by norm_num, by norm_num⟩

end Verif.SkyInt
