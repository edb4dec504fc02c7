import Verif.SkyInt.Lemmas2
/-
C81: the region of the sky that contributes to the response of an event.
-/
set_option linter.unusedSimpArgs false
set_option linter.unusedVariables false
namespace Verif.SkyInt
open Real Spec MeasureTheory

theorem limits_mu {m : SkyMap} {origin : V3} {ra dec : ℝ} {l : Limits}
    (h : limits m origin ra dec = some l) :
    l.mumin = (minMaxDistPixels m origin (sphere ra dec)).farthest.dot (sphere ra dec) ∧
    l.mumax = if m.inside (sphere ra dec) then 1
      else (minMaxDistPixels m origin (sphere ra dec)).closest.dot (sphere ra dec) := by
  unfold limits at h
  simp only at h
  split at h
  · rename_i hi
    cases h
    exact ⟨rfl, by rw [if_pos hi]⟩
  · rename_i hi
    split at h
    · cases h
    · split at h
      · cases h
      · cases h
        exact ⟨rfl, by rw [if_neg hi]⟩

/-- C81: the integral runs from the distance of the farthest to that of the closest pixel of the
border of the map, and from the event itself if it is inside the map. -/
theorem C81_border (m : SkyMap) (origin : V3) (ra dec : ℝ) (l : Limits)
    (h : limits m origin ra dec = some l) (h1 : 1 ≤ m.n1) (h2 : 1 ≤ m.n2)
    (hpix : ∀ i j, Border m.n1 m.n2 i j → ∃ d, m.pix i j = some d ∧ OnSphere d) :
    (∃ i j d, Border m.n1 m.n2 i j ∧ m.pix i j = some d ∧ l.mumin = prod d (centre ra dec)) ∧
    (∀ i j d, Border m.n1 m.n2 i j → m.pix i j = some d → l.mumin ≤ prod d (centre ra dec)) ∧
    (m.inside (centre ra dec) = true → l.mumax = 1) ∧
    (m.inside (centre ra dec) = false →
      (∃ i j d, Border m.n1 m.n2 i j ∧ m.pix i j = some d ∧ l.mumax = prod d (centre ra dec)) ∧
      (∀ i j d, Border m.n1 m.n2 i j → m.pix i j = some d → prod d (centre ra dec) ≤ l.mumax)) := by
  obtain ⟨e1, e2⟩ := limits_mu h
  have hg := minMax_good m origin (sphere ra dec) h1 h2
  have hsky : ∀ i j d, m.pix i j = some d → m.skyDir origin i j = d := by
    intro i j d hd; simp [SkyMap.skyDir, hd]
  have hc : OnSphere (centre ra dec) := cc ra dec
  obtain ⟨i, j, hb, he⟩ := hg.far
  obtain ⟨d, hd, hu⟩ := hpix i j hb
  rw [hsky i j d hd] at he
  obtain ⟨i', j', hb', he'⟩ := hg.close
  obtain ⟨d', hd', hu'⟩ := hpix i' j' hb'
  rw [hsky i' j' d' hd'] at he'
  refine ⟨⟨i, j, d, hb, hd, by rw [e1, he]; rfl⟩, ?_, ?_, ?_⟩
  · intro p q c hpq hcq
    obtain ⟨c', hc', hcu⟩ := hpix p q hpq
    rw [hcq] at hc'
    cases hc'
    have := hg.maxGe c ⟨p, q, hpq, (hsky p q c hcq).symm⟩
    rw [hg.maxEq, he] at this
    by_contra hlt
    have hlt := not_le.1 hlt
    rw [e1, he, dot_eq, sphere_centre, prod_comm' c, prod_comm' d] at hlt
    exact absurd this (not_le.2 (difference_lt hc hcu hu hlt))
  · intro hi
    rw [e2, sphere_centre, if_pos hi]
  · intro hi
    have e3 : l.mumax = prod d' (centre ra dec) := by
      rw [e2, sphere_centre, if_neg (by rw [hi]; simp), ← sphere_centre, he']; rfl
    refine ⟨⟨i', j', d', hb', hd', e3⟩, ?_⟩
    intro p q c hpq hcq
    obtain ⟨c', hc', hcu⟩ := hpix p q hpq
    rw [hcq] at hc'
    cases hc'
    have := hg.minLe c ⟨p, q, hpq, (hsky p q c hcq).symm⟩
    rw [hg.minEq, he'] at this
    by_contra hlt
    have hlt := not_le.1 hlt
    rw [e3, prod_comm' c, prod_comm' d'] at hlt
    exact absurd this (not_le.2 (difference_lt hc hu' hcu hlt))

/-- A map of three by three pixels around the point opposite to the event. -/
noncomputable def antiAngle : ℕ → ℕ → ℝ
  | 1, 1 => -(3 * π / 4)
  | 2, 1 => -(π / 2)
  | 3, 1 => -(π / 4)
  | 3, 2 => 0
  | 3, 3 => π / 4
  | 2, 3 => π / 2
  | 1, 3 => 3 * π / 4
  | _, _ => π

/-- Its centre is opposite to the event, the others are at a distance whose cosine is -4/5. -/
noncomputable def antiMap : SkyMap where
  n1 := 3
  n2 := 3
  pix i j := if i = 2 ∧ j = 2 then some (around 0 0 (-1) 0) else some (around 0 0 (-(4 / 5)) (antiAngle i j))
  inside _ := false

theorem antiMap_border {i j : ℕ} (h : Border 3 3 i j) :
    antiMap.pix i j = some (around 0 0 (-(4 / 5)) (antiAngle i j)) := by
  obtain ⟨a1, a2, a3, a4, a5⟩ := h
  simp only [antiMap]
  rw [if_neg (by omega)]

theorem sqrt_rat : √(1 - (-(4 / 5) : ℝ) ^ 2) = 3 / 5 := by
  rw [show 1 - (-(4 / 5) : ℝ) ^ 2 = (3 / 5) ^ 2 by norm_num, sqrt_sq (by norm_num)]

theorem sin_3pi4 : sin (3 * π / 4) = √2 / 2 := by
  rw [show 3 * π / 4 = π - π / 4 by ring, sin_pi_sub, sin_pi_div_four]

theorem sqrt2_ge : (1 : ℝ) ≤ √2 := by
  rw [show (1 : ℝ) = √1 by simp]; exact sqrt_le_sqrt (by norm_num)

/-- C81 fails for a map that covers the point opposite to the event: only the border is
searched, so pixels in the middle are farther than the limit and do not contribute. -/
theorem C81_interior_violates (origin : V3) :
    ∃ l d, limits antiMap origin 0 0 = some l ∧ l.mumin = -(4 / 5) ∧
      antiMap.pix 2 2 = some d ∧ OnSphere d ∧ prod d (centre 0 0) = -1 := by
  have hphi : phiValue (-(4 / 5)) (around 0 0 (-(4 / 5)) (-(3 * π / 4))) (Rot.make 0 0) =
      some (-(3 * π / 4)) := by
    apply phiValue_around (by norm_num) (by norm_num) (by linarith [pi_pos]) (by linarith [pi_pos])
      (by norm_num)
    right
    rw [sqrt_rat, sin_neg, abs_neg, sin_3pi4, abs_of_nonneg (by positivity)]
    linarith [sqrt2_ge]
  have hc : (antiMap.skyDir origin 1 1) = around 0 0 (-(4 / 5)) (-(3 * π / 4)) := by
    simp [SkyMap.skyDir, antiMap, antiAngle]
  have hl : ∃ l, limits antiMap origin 0 0 = some l := by
    unfold limits
    simp only [corners, hc, around_dot, hphi]
    rw [if_neg (by simp [antiMap])]
    exact ⟨_, rfl⟩
  obtain ⟨l, hl⟩ := hl
  have hB := C81_border antiMap origin 0 0 l hl (by decide) (by decide) (fun i j hb =>
    ⟨_, antiMap_border hb, around_unit _ (by norm_num) (by norm_num)⟩)
  obtain ⟨⟨i, j, d, hb, hd, he⟩, _⟩ := hB
  rw [antiMap_border hb] at hd
  cases hd
  refine ⟨l, around 0 0 (-1) 0, hl, ?_, by simp [antiMap], around_unit _ (by norm_num) (by norm_num), ?_⟩
  · rw [he]; exact around_dot 0 0 _ _
  · exact around_dot 0 0 _ _

/-- All corners have the angles of the list. -/
def CornerAngles (ra dec : ℝ) (cs : List V3) (phis : List ℝ) : Prop :=
  List.Forall₂ (fun c phi => phiValue (c.dot (sphere ra dec)) c (Rot.make ra dec) = some phi) cs phis

theorem phiSearch_spec (ra dec : ℝ) : ∀ {cs : List V3} {phis : List ℝ} (s : ℝ × ℝ), s.1 ≤ s.2 →
    CornerAngles ra dec cs phis →
    (∀ p ∈ phis, (phiSearch (sphere ra dec) (Rot.make ra dec) s cs).1 ≤ p ∧
      p ≤ (phiSearch (sphere ra dec) (Rot.make ra dec) s cs).2) ∧
    (phiSearch (sphere ra dec) (Rot.make ra dec) s cs).1 ≤ s.1 ∧
    s.2 ≤ (phiSearch (sphere ra dec) (Rot.make ra dec) s cs).2 ∧
    (phiSearch (sphere ra dec) (Rot.make ra dec) s cs).1 ∈ s.1 :: phis ∧
    (phiSearch (sphere ra dec) (Rot.make ra dec) s cs).2 ∈ s.2 :: phis
  | _, _, s, hs, .nil => by simp [phiSearch]
  | c :: cs, phi :: phis, s, hs, .cons h1 h2 => by
    rw [phiSearch, h1]
    simp only
    set s' : ℝ × ℝ := (if phi < s.1 then phi else s.1, if phi > s.2 then phi else s.2) with hs'
    have ha : s'.1 ≤ s.1 ∧ s'.1 ≤ phi ∧ (s'.1 = phi ∨ s'.1 = s.1) := by
      simp only [hs']
      split
      · rename_i h; exact ⟨h.le, le_rfl, Or.inl rfl⟩
      · rename_i h; exact ⟨le_rfl, not_lt.1 h, Or.inr rfl⟩
    have hb : s.2 ≤ s'.2 ∧ phi ≤ s'.2 ∧ (s'.2 = phi ∨ s'.2 = s.2) := by
      simp only [hs']
      split
      · rename_i h; exact ⟨le_of_lt h, le_rfl, Or.inl rfl⟩
      · rename_i h; exact ⟨le_rfl, not_lt.1 h, Or.inr rfl⟩
    obtain ⟨i1, i2, i3, i4, i5⟩ := phiSearch_spec ra dec s' (by linarith [ha.1, hb.1]) h2
    refine ⟨?_, i2.trans ha.1, hb.1.trans i3, ?_, ?_⟩
    · intro p hp
      rcases List.mem_cons.1 hp with rfl | hp
      · exact ⟨i2.trans ha.2.1, hb.2.1.trans i3⟩
      · exact i1 p hp
    · rcases List.mem_cons.1 i4 with e | e
      · rcases ha.2.2 with e' | e' <;> rw [e, e'] <;> simp
      · exact List.mem_cons_of_mem _ (List.mem_cons_of_mem _ e)
    · rcases List.mem_cons.1 i5 with e | e
      · rcases hb.2.2 with e' | e' <;> rw [e, e'] <;> simp
      · exact List.mem_cons_of_mem _ (List.mem_cons_of_mem _ e)

/-- The limits of the angle for a map whose corners have angles. -/
theorem limits_phi {m : SkyMap} {origin : V3} {ra dec p1 p2 p3 p4 : ℝ}
    (hi : m.inside (sphere ra dec) = false)
    (hc : CornerAngles ra dec (corners m origin) [p1, p2, p3, p4]) :
    ∃ l lo hi, limits m origin ra dec = some l ∧ (l.phimin, l.phimax) = remap (lo, hi) ∧
      lo ∈ [p1, p2, p3, p4] ∧ hi ∈ [p1, p2, p3, p4] ∧
      ∀ p ∈ [p1, p2, p3, p4], lo ≤ p ∧ p ≤ hi := by
  unfold limits
  simp only [hi, Bool.false_eq_true, if_false]
  cases hcs : corners m origin with
  | nil => rw [hcs] at hc; cases hc
  | cons c cs =>
    rw [hcs] at hc
    cases hc with
    | cons h1 h2 =>
      simp only [h1]
      obtain ⟨i1, i2, i3, i4, i5⟩ := phiSearch_spec ra dec (p1, p1) le_rfl h2
      refine ⟨_, _, _, rfl, rfl, i4, i5, ?_⟩
      intro p hp
      rcases List.mem_cons.1 hp with rfl | hp
      · exact ⟨i2, i3⟩
      · exact i1 p hp

/-- C81: if the corners of a map that does not contain the event are seen from it within half a
turn that does not cross west, the integral covers the angles of all of them.  Missing: maps
west of the event, and what is between the corners. -/
theorem C81_corners_partial (m : SkyMap) (origin : V3) (ra dec p1 p2 p3 p4 : ℝ)
    (hi : m.inside (sphere ra dec) = false)
    (hc : CornerAngles ra dec (corners m origin) [p1, p2, p3, p4])
    (hd : ∀ p ∈ [p1, p2, p3, p4], ∀ q ∈ [p1, p2, p3, p4], p - q ≤ π) :
    ∃ l, limits m origin ra dec = some l ∧ l.phimax - l.phimin ≤ π ∧
      ∀ p ∈ [p1, p2, p3, p4], Between p l.phimin l.phimax := by
  obtain ⟨l, lo, hi', h1, h2, h3, h4, h5⟩ := limits_phi hi hc
  have hle : hi' - lo ≤ π := hd _ h4 _ h3
  unfold remap at h2
  rw [if_neg (not_lt.2 hle)] at h2
  simp only [Prod.mk.injEq] at h2
  obtain ⟨e1, e2⟩ := h2
  refine ⟨l, h1, by rw [e1, e2]; exact hle, ?_⟩
  intro p hp
  refine ⟨0, ?_, ?_⟩
  · rw [e1]; simpa using (h5 p hp).1
  · rw [e2]; simpa using (h5 p hp).2

/-- A map of two by two pixels west of the event. -/
noncomputable def westMap : SkyMap where
  n1 := 2
  n2 := 2
  pix i j := some (around 0 0 (-(4 / 5)) (if i = 1 then (if j = 1 then -(3 * π / 4) else 3 * π / 4)
    else (if j = 1 then -(5 * π / 6) else 5 * π / 6)))
  inside _ := false

theorem sin_5pi6 : sin (5 * π / 6) = 1 / 2 := by
  rw [show 5 * π / 6 = π - π / 6 by ring, sin_pi_sub, sin_pi_div_six]

theorem west_corners (origin : V3) : CornerAngles 0 0 (corners westMap origin)
    [-(3 * π / 4), 3 * π / 4, 5 * π / 6, -(5 * π / 6)] := by
  have key : ∀ phi, -π < phi → phi ≤ π → (0 ≤ phi ∨ 1e-8 ≤ 2 * (3 / 5 * |sin phi|)) →
      phiValue ((around 0 0 (-(4 / 5)) phi).dot (sphere 0 0)) (around 0 0 (-(4 / 5)) phi) (Rot.make 0 0) =
        some phi := by
    intro phi h1 h2 h3
    rw [around_dot]
    apply phiValue_around (by norm_num) (by norm_num) h1 h2 (by norm_num)
    rw [sqrt_rat]; exact h3
  have hp := pi_pos
  unfold CornerAngles corners
  simp only [SkyMap.skyDir, westMap, Option.getD_some]
  refine .cons ?_ (.cons ?_ (.cons ?_ (.cons ?_ .nil)))
  · simp only [if_true]
    refine key _ (by linarith) (by linarith) (Or.inr ?_)
    rw [sin_neg, abs_neg, sin_3pi4, abs_of_nonneg (by positivity)]; linarith [sqrt2_ge]
  · simp only [if_true, OfNat.ofNat_ne_one, if_false]
    exact key _ (by linarith) (by linarith) (Or.inl (by linarith))
  · simp only [OfNat.ofNat_ne_one, if_false]
    exact key _ (by linarith) (by linarith) (Or.inl (by linarith))
  · simp only [if_true, OfNat.ofNat_ne_one, if_false]
    refine key _ (by linarith) (by linarith) (Or.inr ?_)
    rw [sin_neg, abs_neg, sin_5pi6, abs_of_nonneg (by norm_num)]; norm_num

/-- C81 fails for a map west of the event: the limits are those of the two corners nearest to
the line to the west, and the other two corners are outside. -/
theorem C81_corners_violates (origin : V3) :
    ∃ l, limits westMap origin 0 0 = some l ∧ l.phimin = 5 * π / 6 ∧ l.phimax = 7 * π / 6 ∧
      phiValue ((westMap.skyDir origin 1 2).dot (sphere 0 0)) (westMap.skyDir origin 1 2) (Rot.make 0 0) =
        some (3 * π / 4) ∧
      ¬ Between (3 * π / 4) l.phimin l.phimax := by
  have hp := pi_pos
  have hc := west_corners origin
  obtain ⟨l, lo, hi, h1, h2, h3, h4, h5⟩ := limits_phi (m := westMap) (origin := origin) (ra := 0) (dec := 0) rfl hc
  have hlo : lo = -(5 * π / 6) := by
    have a1 := (h5 (-(5 * π / 6)) (by simp)).1
    simp only [List.mem_cons, List.not_mem_nil, or_false] at h3
    rcases h3 with e | e | e | e <;> rw [e] at a1 ⊢ <;> linarith
  have hhi : hi = 5 * π / 6 := by
    have a1 := (h5 (5 * π / 6) (by simp)).2
    simp only [List.mem_cons, List.not_mem_nil, or_false] at h4
    rcases h4 with e | e | e | e <;> rw [e] at a1 ⊢ <;> linarith
  unfold remap at h2
  simp only at h2
  rw [hlo, hhi, if_pos (by linarith), if_pos (by linarith)] at h2
  simp only [Prod.mk.injEq] at h2
  obtain ⟨e1, e2⟩ := h2
  refine ⟨l, h1, e1, by rw [e2]; ring, ?_, ?_⟩
  · cases hc with
    | cons _ h =>
      cases h with
      | cons h _ => exact h
  · rintro ⟨k, k1, k2⟩
    rw [e1] at k1
    rw [e2] at k2
    have k1' : (0 : ℝ) < k := by
      by_contra hk
      have hk := not_lt.1 hk
      nlinarith
    have k2' : (k : ℝ) < 1 := by
      by_contra hk
      have hk := not_lt.1 hk
      nlinarith
    have a1 : (0 : ℤ) < k := by exact_mod_cast k1'
    have a2 : k < (1 : ℤ) := by exact_mod_cast k2'
    omega

/-- A map east of the event meets the conditions of `C81_corners_partial`. -/
example : ∀ p ∈ [-(π / 4), π / 4, π / 6, -(π / 6)], ∀ q ∈ [-(π / 4), π / 4, π / 6, -(π / 6)], p - q ≤ π := by
  have hp := pi_pos
  intro p hp' q hq'
  simp only [List.mem_cons, List.not_mem_nil, or_false] at hp' hq'
  rcases hp' with rfl | rfl | rfl | rfl <;> rcases hq' with rfl | rfl | rfl | rfl <;> linarith

end Verif.SkyInt
