import Verif.SkyInt.Lemmas
/-
C80: the directions at which a diffuse source is evaluated around an event.
-/
set_option linter.unusedSimpArgs false
set_option linter.unusedVariables false
namespace Verif.SkyInt
open Real Spec

/-- C80: the rotation takes the equinox to the given direction, keeps all angles, and the
reverse rotation undoes it and is undone by it. -/
theorem C80_rotation (ra dec : ℝ) (u v : V3) :
    (Rot.make ra dec).apply false ⟨1, 0, 0⟩ = centre ra dec ∧
    prod ((Rot.make ra dec).apply false u) ((Rot.make ra dec).apply false v) = prod u v ∧
    (Rot.make ra dec).apply true ((Rot.make ra dec).apply false v) = v ∧
    (Rot.make ra dec).apply false ((Rot.make ra dec).apply true v) = v := by
  refine ⟨?_, ?_, ?_, ?_⟩
  · rw [apply_eq]
    ext <;> simp [comb]
  · rw [apply_eq, apply_eq, prod_comb_comb]; rfl
  · rw [apply_eq, apply_reverse]
    obtain ⟨h1, h2, h3⟩ := coords ra dec v.x v.y v.z
    rw [h1, h2, h3]
  · rw [apply_reverse, apply_eq]
    exact frame_expand ra dec v

/-- C80: the direction for a pair of integration variables is the unit vector whose distance
from the event has the cosine `mu` and whose angle around it is `phi`.  Missing: the two points
with `mu = 0` straight north and south, where zero is divided by zero. -/
theorem C80_direction_partial (ra dec mu phi : ℝ) (h1 : -1 ≤ mu) (h2 : mu ≤ 1)
    (h : ¬ (mu = 0 ∧ cos phi = 0)) :
    ∃ d, srcDir mu phi (Rot.make ra dec) = some d ∧ OnSphere d ∧ prod d (centre ra dec) = mu ∧
      d = around ra dec mu phi := by
  refine ⟨_, srcDir_eq h1 h2 h, ?_, ?_, rfl⟩
  · have hm : 0 ≤ 1 - mu ^ 2 := by nlinarith
    have hs := sin_sq_add_cos_sq phi
    unfold OnSphere around
    rw [prod_comb_comb]
    linear_combination (cos phi ^ 2 + sin phi ^ 2) * sq_sqrt hm + (1 - mu ^ 2) * hs
  · rw [prod_comm', around]
    exact (coords ra dec _ _ _).1

/-- C80 fails at these two points: there is no direction. -/
theorem C80_direction_violates (ra dec phi : ℝ) (h : cos phi = 0) :
    srcDir 0 phi (Rot.make ra dec) = none :=
  srcDir_none _ h

example : cos (π / 2) = 0 := cos_pi_div_two
example : ¬ ((1 / 2 : ℝ) = 0 ∧ cos (π / 2) = 0) := by norm_num

theorem exists_angle {a b r : ℝ} (hr : 0 < r) (h : a ^ 2 + b ^ 2 = r ^ 2) :
    ∃ phi, -π < phi ∧ phi ≤ π ∧ a = r * cos phi ∧ b = r * sin phi := by
  have hab : |a| ≤ r := abs_le_of_sq_le_sq (by nlinarith [sq_nonneg b]) hr.le
  obtain ⟨ha1, ha2⟩ := abs_le.1 hab
  have hc1 : a / r ≤ 1 := by rw [div_le_one hr]; exact ha2
  have hc2 : -1 ≤ a / r := by rw [le_div_iff₀ hr]; linarith
  have hcos : r * cos (arccos (a / r)) = a := by rw [cos_arccos hc2 hc1]; field_simp
  have hsin : r * sin (arccos (a / r)) = |b| := by
    rw [sin_arccos]
    have e1 : 1 - (a / r) ^ 2 = (|b| / r) ^ 2 := by
      rw [div_pow, div_pow, sq_abs]
      field_simp
      linarith
    rw [e1, sqrt_sq (by positivity)]
    field_simp
  have hπ := arccos_le_pi (a / r)
  have h0 := arccos_nonneg (a / r)
  have hpi := pi_pos
  by_cases hb : 0 ≤ b
  · refine ⟨arccos (a / r), by linarith, hπ, hcos.symm, ?_⟩
    rw [hsin, abs_of_nonneg hb]
  · have hb := not_le.1 hb
    refine ⟨-arccos (a / r), ?_, by linarith, ?_, ?_⟩
    · have : arccos (a / r) ≠ π := by
        intro e
        rw [e, sin_pi, mul_zero] at hsin
        have := abs_eq_zero.1 hsin.symm
        linarith
      have := lt_of_le_of_ne hπ this
      linarith
    · rw [cos_neg, hcos]
    · rw [sin_neg, mul_neg, hsin, abs_of_neg hb, neg_neg]

theorem angle_unique {p q : ℝ} (hp : -π < p) (hp' : p ≤ π) (hq : -π < q) (hq' : q ≤ π)
    (hc : cos p = cos q) (hs : sin p = sin q) : p = q := by
  have h1 : cos (p - q) = 1 := by
    rw [cos_sub, hc, hs]; nlinarith [sin_sq_add_cos_sq q]
  have h2 : -(2 * π) < p - q := by linarith
  have h3 : p - q < 2 * π := by linarith
  have := (cos_eq_one_iff_of_lt_of_lt h2 h3).1 h1
  linarith

/-- C80: the integration variables reach every direction on the sky except the event and the
point opposite to it, and each exactly once. -/
theorem C80_cover (ra dec : ℝ) (v : V3) (hv : OnSphere v) (h1 : v ≠ centre ra dec)
    (h2 : v ≠ ⟨-(centre ra dec).x, -(centre ra dec).y, -(centre ra dec).z⟩) :
    ∃! p : ℝ × ℝ, (-1 < p.1 ∧ p.1 < 1 ∧ -π < p.2 ∧ p.2 ≤ π) ∧ around ra dec p.1 p.2 = v := by
  have hex := frame_expand ra dec v
  set m := prod (centre ra dec) v with hm
  set a := prod (east ra) v with ha
  set b := prod (north ra dec) v with hb
  have hsum : m * m + a * a + b * b = 1 := by
    have := prod_comb_comb ra dec m a b m a b
    rw [hex] at this
    rw [← this]; exact hv
  have hm2 : 0 < 1 - m ^ 2 := by
    by_contra hc
    have hc := not_lt.1 hc
    have ha0 : a = 0 := by nlinarith [sq_nonneg a, sq_nonneg b]
    have hb0 : b = 0 := by nlinarith [sq_nonneg a, sq_nonneg b]
    have hmm : m * m = 1 := by rw [ha0, hb0] at hsum; linarith
    rw [ha0, hb0] at hex
    rcases mul_self_eq_one_iff.1 hmm with e | e
    · apply h1; rw [← hex, e]; ext <;> simp [comb]
    · apply h2; rw [← hex, e]; ext <;> simp [comb]
  have hlt : |m| < 1 := by
    apply abs_lt_of_sq_lt_sq _ zero_le_one
    linarith
  obtain ⟨hm3, hm4⟩ := abs_lt.1 hlt
  have hr : 0 < √(1 - m ^ 2) := sqrt_pos.2 hm2
  have hab : a ^ 2 + b ^ 2 = √(1 - m ^ 2) ^ 2 := by
    rw [sq_sqrt hm2.le]; nlinarith
  obtain ⟨phi, hp1, hp2, hp3, hp4⟩ := exists_angle hr hab
  refine ⟨(m, phi), ⟨⟨hm3, hm4, hp1, hp2⟩, ?_⟩, ?_⟩
  · simp only [around]
    rw [← hp3, ← hp4]; exact hex
  · rintro ⟨m', phi'⟩ ⟨⟨_, _, hq1, hq2⟩, he⟩
    simp only at hq1 hq2 he
    obtain ⟨c1, c2, c3⟩ := coords ra dec m' (√(1 - m' ^ 2) * cos phi') (√(1 - m' ^ 2) * sin phi')
    rw [around] at he
    rw [he] at c1 c2 c3
    have e1 : m' = m := by rw [hm, ← c1]
    subst e1
    have e2 : cos phi' = cos phi := by
      have : √(1 - m ^ 2) * cos phi' = √(1 - m ^ 2) * cos phi := by rw [← hp3, ha, ← c2]
      exact mul_left_cancel₀ hr.ne' this
    have e3 : sin phi' = sin phi := by
      have : √(1 - m ^ 2) * sin phi' = √(1 - m ^ 2) * sin phi := by rw [← hp4, hb, ← c3]
      exact mul_left_cancel₀ hr.ne' this
    rw [angle_unique hq1 hq2 hp1 hp2 e2 e3]

/-- C80: the angle of a direction around the event leads back to that direction, to within the
tolerance of 1e-8 radians that decides on which side it is.  Missing: the event, its opposite,
and the two points of `C80_direction_violates`. -/
theorem C80_angle_partial (ra dec : ℝ) (v : V3) (hv : OnSphere v)
    (hm : |prod v (centre ra dec)| < 1)
    (h0 : ¬ (prod v (centre ra dec) = 0 ∧ prod v (east ra) = 0)) :
    ∃ phi d, phiValue (prod v (centre ra dec)) v (Rot.make ra dec) = some phi ∧
      -π ≤ phi ∧ phi ≤ π ∧
      srcDir (prod v (centre ra dec)) phi (Rot.make ra dec) = some d ∧ difference v d < 1e-8 := by
  have hex := frame_expand ra dec v
  rw [prod_comm' v] at hm h0 ⊢
  rw [prod_comm' v] at h0
  set m := prod (centre ra dec) v with hmdef
  set a := prod (east ra) v with ha
  set b := prod (north ra dec) v with hb
  obtain ⟨hm1, hm2⟩ := abs_lt.1 hm
  have hsum : m * m + a * a + b * b = 1 := by
    have := prod_comb_comb ra dec m a b m a b
    rw [hex] at this
    rw [← this]; exact hv
  have hmm : 0 < 1 - m ^ 2 := by nlinarith
  set r := √(1 - m ^ 2) with hrdef
  have hr : 0 < r := sqrt_pos.2 hmm
  have hrsq : r ^ 2 = 1 - m ^ 2 := sq_sqrt hmm.le
  have hab : a ^ 2 + b ^ 2 = r ^ 2 := by rw [hrsq]; nlinarith
  have href : srcDir m 0 (Rot.make ra dec) = some (around ra dec m 0) :=
    srcDir_eq hm1.le hm2.le (by simp)
  have harg : ((around ra dec m 0).dot v - m * m) / (1 - m * m) = a / r := by
    have e1 : (around ra dec m 0).dot v = prod (around ra dec m 0) v := rfl
    have e2 : prod (around ra dec m 0) v = m * m + r * a := by
      rw [around, prod_comb, cos_zero, sin_zero]; ring
    have e3 : 1 - m * m = r ^ 2 := by rw [hrsq]; ring
    rw [e1, e2, e3]; field_simp; ring
  have hab' : |a| ≤ r := abs_le_of_sq_le_sq (by nlinarith [sq_nonneg b]) hr.le
  obtain ⟨ha1, ha2⟩ := abs_le.1 hab'
  have hc1 : a / r ≤ 1 := by rw [div_le_one hr]; exact ha2
  have hc2 : -1 ≤ a / r := by rw [le_div_iff₀ hr]; linarith
  have hphi0 : (if a / r ≤ -1 then π else if 1 ≤ a / r then 0 else arccos (a / r)) =
      arccos (a / r) := by
    split
    · rename_i h; rw [arccos_eq_pi.2 h]
    · split
      · rename_i h; rw [arccos_eq_zero.2 h]
      · rfl
  have hcos : r * cos (arccos (a / r)) = a := by rw [cos_arccos hc2 hc1]; field_simp
  have hsin : r * sin (arccos (a / r)) = |b| := by
    rw [sin_arccos]
    have e1 : 1 - (a / r) ^ 2 = (|b| / r) ^ 2 := by
      rw [div_pow, div_pow, sq_abs]
      field_simp
      linarith
    rw [e1, sqrt_sq (by positivity)]
    field_simp
  have hnz : ¬ (m = 0 ∧ cos (arccos (a / r)) = 0) := by
    rintro ⟨e1, e2⟩
    refine h0 ⟨e1, ?_⟩
    rw [← hcos, e2, mul_zero]
  have hd0 := srcDir_eq (ra := ra) (dec := dec) hm1.le hm2.le hnz
  have hπ := arccos_le_pi (a / r)
  have hp0 := arccos_nonneg (a / r)
  have hval : phiValue m v (Rot.make ra dec) =
      if difference v (around ra dec m (arccos (a / r))) < 1e-8 then some (arccos (a / r))
      else some (-arccos (a / r)) := by
    unfold phiValue
    rw [href]
    simp only
    rw [if_neg (by intro e; nlinarith), harg, hphi0, hd0]
  by_cases hd : difference v (around ra dec m (arccos (a / r))) < 1e-8
  · exact ⟨_, _, by rw [hval, if_pos hd], by linarith [pi_pos], hπ, hd0, hd⟩
  · have hneg : ¬ (m = 0 ∧ cos (-arccos (a / r)) = 0) := by rw [cos_neg]; exact hnz
    refine ⟨_, _, by rw [hval, if_neg hd], by linarith, by linarith [pi_pos],
      srcDir_eq hm1.le hm2.le hneg, ?_⟩
    have hbneg : b < 0 := by
      by_contra hb0
      have hb0 := not_lt.1 hb0
      apply hd
      have : around ra dec m (arccos (a / r)) = v := by
        rw [around, hcos, hsin, abs_of_nonneg hb0]; exact hex
      rw [this, difference_self]; norm_num
    have : around ra dec m (-arccos (a / r)) = v := by
      rw [around, cos_neg, sin_neg, mul_neg, hcos, hsin, abs_of_neg hbneg, neg_neg]; exact hex
    rw [this, difference_self]; norm_num

/-- The direction straight north at a distance of 60 degrees. -/
example : ∃ v : V3, OnSphere v ∧ |prod v (centre 0 0)| < 1 ∧
    ¬ (prod v (centre 0 0) = 0 ∧ prod v (east 0) = 0) := by
  refine ⟨⟨3 / 5, 0, 4 / 5⟩, ?_, ?_, ?_⟩
  · norm_num [OnSphere, prod]
  · norm_num [prod, centre, abs_lt]
  · norm_num [prod, centre]

/-- C80 fails for the direction 90 degrees north of the event: its angle is given as if it were
south. -/
theorem C80_angle_violates (ra dec : ℝ) :
    OnSphere (north ra dec) ∧ prod (north ra dec) (centre ra dec) = 0 ∧
    phiValue (prod (north ra dec) (centre ra dec)) (north ra dec) (Rot.make ra dec) = some (-(π / 2)) := by
  have h0 : prod (north ra dec) (centre ra dec) = 0 := by rw [prod_comm', cn]
  refine ⟨nn ra dec, h0, ?_⟩
  rw [h0]
  have href : srcDir 0 0 (Rot.make ra dec) = some (around ra dec 0 0) :=
    srcDir_eq (by norm_num) (by norm_num) (by simp)
  have e1 : (around ra dec 0 0).dot (north ra dec) = 0 := by
    have : (around ra dec 0 0).dot (north ra dec) = prod (around ra dec 0 0) (north ra dec) := rfl
    rw [this, around, prod_comb, en, cn, sin_zero]; ring
  unfold phiValue
  rw [href]
  simp only [e1]
  norm_num
  rw [srcDir_none _ cos_pi_div_two]

/-- C80: a cosine that rounding moved out of the range is taken as the nearest possible cosine. -/
theorem C80_rounded (mu : ℝ) : myAcos mu = arccos (max (-1) (min 1 mu)) := by
  unfold myAcos
  split
  · rename_i h
    rw [min_eq_left h.le, max_eq_right (by norm_num), arccos_one]
  · rename_i h
    rw [min_eq_right (not_lt.1 h)]
    split
    · rename_i h'
      rw [max_eq_left h'.le, arccos_neg_one]
    · rename_i h'
      rw [max_eq_right (not_lt.1 h')]

end Verif.SkyInt
