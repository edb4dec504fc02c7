import Verif.SkyInt.Spec
import Mathlib.Tactic.Linarith
import Mathlib.Tactic.LinearCombination
import Mathlib.Tactic.FieldSimp
import Mathlib.Tactic.Ring
import Mathlib.Tactic.Positivity
import Mathlib.Tactic.NormNum
/-
Lemmas on directions.
-/
set_option linter.unusedSimpArgs false
set_option linter.unusedVariables false
namespace Verif.SkyInt
open Real Spec

theorem apply_eq (ra dec : ℝ) (v : V3) :
    (Rot.make ra dec).apply false v = comb v.x v.y v.z (centre ra dec) (east ra) (north ra dec) := by
  simp only [Rot.apply, Rot.component, Rot.make, comb, centre, east, north, V3.mk.injEq,
    Matrix.cons_val_zero, Matrix.cons_val_one, Matrix.cons_val, Bool.false_eq_true, if_false]
  refine ⟨by ring, by ring, by ring⟩

theorem apply_reverse (ra dec : ℝ) (v : V3) :
    (Rot.make ra dec).apply true v =
      ⟨prod (centre ra dec) v, prod (east ra) v, prod (north ra dec) v⟩ := by
  simp only [Rot.apply, Rot.component, Rot.make, prod, centre, east, north, V3.mk.injEq,
    Matrix.cons_val_zero, Matrix.cons_val_one, Matrix.cons_val, if_true]
  refine ⟨by ring, by ring, by ring⟩

section frame
variable (ra dec : ℝ)

theorem cc : prod (centre ra dec) (centre ra dec) = 1 := by
  simp only [prod, centre]
  linear_combination cos dec ^ 2 * sin_sq_add_cos_sq ra + sin_sq_add_cos_sq dec
theorem ee : prod (east ra) (east ra) = 1 := by
  simp only [prod, east]
  linear_combination sin_sq_add_cos_sq ra
theorem nn : prod (north ra dec) (north ra dec) = 1 := by
  simp only [prod, north]
  linear_combination sin dec ^ 2 * sin_sq_add_cos_sq ra + sin_sq_add_cos_sq dec
theorem ce : prod (centre ra dec) (east ra) = 0 := by
  simp only [prod, centre, east]; ring
theorem cn : prod (centre ra dec) (north ra dec) = 0 := by
  simp only [prod, centre, north]
  linear_combination (-cos dec * sin dec) * sin_sq_add_cos_sq ra
theorem en : prod (east ra) (north ra dec) = 0 := by
  simp only [prod, east, north]; ring

theorem prod_comm' (u v : V3) : prod u v = prod v u := by
  simp only [prod]; ring

theorem prod_comb (a b c : ℝ) (u v w t : V3) :
    prod (comb a b c u v w) t = a * prod u t + b * prod v t + c * prod w t := by
  simp only [prod, comb]; ring

/-- Coordinates in the frame. -/
theorem coords (a b c : ℝ) :
    prod (centre ra dec) (comb a b c (centre ra dec) (east ra) (north ra dec)) = a ∧
    prod (east ra) (comb a b c (centre ra dec) (east ra) (north ra dec)) = b ∧
    prod (north ra dec) (comb a b c (centre ra dec) (east ra) (north ra dec)) = c := by
  have h1 := cc ra dec
  have h2 := ee ra
  have h3 := nn ra dec
  have h4 := ce ra dec
  have h5 := cn ra dec
  have h6 := en ra dec
  refine ⟨?_, ?_, ?_⟩ <;> rw [prod_comm', prod_comb]
  · rw [h1, prod_comm' (east ra), prod_comm' (north ra dec), h4, h5]; ring
  · rw [h4, h2, prod_comm' (north ra dec), h6]; ring
  · rw [h5, h6, h3]; ring

/-- The frame spans. -/
theorem frame_expand (v : V3) :
    comb (prod (centre ra dec) v) (prod (east ra) v) (prod (north ra dec) v)
      (centre ra dec) (east ra) (north ra dec) = v := by
  have ha := sin_sq_add_cos_sq ra
  have hd := sin_sq_add_cos_sq dec
  have hs : sin ra ^ 2 = 1 - cos ra ^ 2 := by linarith
  have hs' : sin dec ^ 2 = 1 - cos dec ^ 2 := by linarith
  ext
  · simp only [comb, prod, centre, east, north]
    ring_nf
    rw [hs', hs]; ring_nf
  · simp only [comb, prod, centre, east, north]
    ring_nf
    rw [hs', hs]; ring_nf
  · simp only [comb, prod, centre, east, north]
    ring_nf
    rw [hs']; ring_nf

theorem prod_comb_comb (a b c a' b' c' : ℝ) :
    prod (comb a b c (centre ra dec) (east ra) (north ra dec))
      (comb a' b' c' (centre ra dec) (east ra) (north ra dec)) = a * a' + b * b' + c * c' := by
  obtain ⟨h1, h2, h3⟩ := coords ra dec a' b' c'
  rw [prod_comb, h1, h2, h3]

end frame

/-- The direction before the rotation. -/
theorem sphere_eq {mu phi : ℝ} (h1 : -1 ≤ mu) (h2 : mu ≤ 1)
    (hr : √(1 - (1 - mu * mu) * sin phi * sin phi) ≠ 0) :
    sphere (if cos phi < 0 then 2 * π - myAcos (mu / √(1 - (1 - mu * mu) * sin phi * sin phi))
        else myAcos (mu / √(1 - (1 - mu * mu) * sin phi * sin phi)))
      (arcsin (√(1 - mu * mu) * sin phi)) =
    ⟨mu, √(1 - mu ^ 2) * cos phi, √(1 - mu ^ 2) * sin phi⟩ := by
  set r := √(1 - (1 - mu * mu) * sin phi * sin phi) with hrdef
  have hm : 0 ≤ 1 - mu * mu := by nlinarith
  have hsc := sin_sq_add_cos_sq phi
  have hr0 : 0 < r := lt_of_le_of_ne (sqrt_nonneg _) (Ne.symm hr)
  have hrsq : r ^ 2 = 1 - (1 - mu * mu) * sin phi * sin phi := by
    rw [hrdef, sq_sqrt]
    have : sin phi * sin phi ≤ 1 := by nlinarith
    nlinarith [mul_le_mul_of_nonneg_left this hm, mul_self_nonneg mu]
  have hrm : r ^ 2 - mu ^ 2 = (1 - mu * mu) * cos phi ^ 2 := by
    rw [hrsq]; linear_combination -(1 - mu * mu) * hsc
  have hle : |mu| ≤ r := by
    apply abs_le_of_sq_le_sq _ hr0.le
    nlinarith [mul_nonneg hm (sq_nonneg (cos phi))]
  obtain ⟨hle1, hle2⟩ := abs_le.1 hle
  have ha1 : mu / r ≤ 1 := by rw [div_le_one hr0]; exact hle2
  have ha2 : -1 ≤ mu / r := by rw [le_div_iff₀ hr0]; linarith
  have hac : myAcos (mu / r) = arccos (mu / r) := by
    unfold myAcos
    rw [if_neg (not_lt.2 ha1), if_neg (not_lt.2 ha2)]
  set m := √(1 - mu * mu) with hmdef
  have hm2 : √(1 - mu ^ 2) = m := by rw [hmdef, pow_two]
  have hmsq : m ^ 2 = 1 - mu * mu := sq_sqrt hm
  have hm0 : 0 ≤ m := sqrt_nonneg _
  have hcd : cos (arcsin (m * sin phi)) = r := by
    rw [cos_arcsin, hrdef]
    congr 1
    rw [mul_pow, hmsq]; ring
  have hsd : sin (arcsin (m * sin phi)) = m * sin phi := by
    have : (m * sin phi) ^ 2 ≤ 1 := by
      rw [mul_pow, hmsq]
      nlinarith [sq_nonneg r]
    have h' : |m * sin phi| ≤ 1 := abs_le_one_iff_mul_self_le_one.2 (by linarith [pow_two (m * sin phi)])
    exact sin_arcsin (abs_le.1 h').1 (abs_le.1 h').2
  have hsa : r * sin (arccos (mu / r)) = m * |cos phi| := by
    rw [sin_arccos]
    have e1 : 1 - (mu / r) ^ 2 = (m * |cos phi| / r) ^ 2 := by
      rw [div_pow, div_pow, mul_pow, sq_abs, hmsq, ← hrm]
      field_simp
    rw [e1, sqrt_sq (by positivity)]
    field_simp
  have hca : r * cos (arccos (mu / r)) = mu := by
    rw [cos_arccos ha2 ha1]; field_simp
  rw [hac, hm2]
  unfold sphere
  rw [hcd, hsd]
  by_cases hc : cos phi < 0
  · rw [if_pos hc, cos_two_pi_sub, sin_two_pi_sub]
    rw [abs_of_neg hc] at hsa
    ext
    · exact hca
    · simp only; rw [mul_neg, hsa]; ring
    · rfl
  · rw [if_neg hc]
    rw [abs_of_nonneg (not_lt.1 hc)] at hsa
    ext
    · exact hca
    · exact hsa
    · rfl

theorem root_ne {mu phi : ℝ} (h1 : -1 ≤ mu) (h2 : mu ≤ 1) (h : ¬ (mu = 0 ∧ cos phi = 0)) :
    √(1 - (1 - mu * mu) * sin phi * sin phi) ≠ 0 := by
  have hsc := sin_sq_add_cos_sq phi
  have e : 1 - (1 - mu * mu) * sin phi * sin phi = mu ^ 2 + (1 - mu * mu) * cos phi ^ 2 := by
    linear_combination -(1 - mu * mu) * hsc
  rw [e]
  apply ne_of_gt
  rw [sqrt_pos]
  have hm : 0 ≤ 1 - mu * mu := by nlinarith
  by_cases h0 : mu = 0
  · subst h0
    have hc : cos phi ≠ 0 := fun hc => h ⟨rfl, hc⟩
    have : 0 < cos phi ^ 2 := by positivity
    linarith
  · have : 0 < mu ^ 2 := by positivity
    nlinarith [mul_nonneg hm (sq_nonneg (cos phi))]

/-- The direction of a pair of coordinates. -/
theorem srcDir_eq {ra dec mu phi : ℝ} (h1 : -1 ≤ mu) (h2 : mu ≤ 1) (h : ¬ (mu = 0 ∧ cos phi = 0)) :
    srcDir mu phi (Rot.make ra dec) = some (around ra dec mu phi) := by
  have hr := root_ne h1 h2 h
  unfold srcDir
  simp only
  rw [if_neg hr, sphere_eq h1 h2 hr, apply_eq]
  rfl

theorem srcDir_none {phi : ℝ} (R : Rot) (h : cos phi = 0) : srcDir 0 phi R = none := by
  unfold srcDir
  simp only
  rw [if_pos]
  have hsc := sin_sq_add_cos_sq phi
  rw [h] at hsc
  have : 1 - (1 - (0 : ℝ) * 0) * sin phi * sin phi = 0 := by linear_combination -hsc
  rw [this, sqrt_zero]

theorem difference_self (v : V3) : difference v v = 0 := by
  simp [difference]

end Verif.SkyInt
