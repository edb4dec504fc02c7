import Verif.ExpApp.Model
import Verif.ExpApp.Spec
import Verif.Vec
import Mathlib.Tactic.Linarith
/-
Source region and times of the program that makes exposure maps (C151).
-/
set_option linter.unusedSectionVars false
set_option linter.unusedSimpArgs false
set_option linter.unusedVariables false
namespace Verif.ExpApp

open Spec

theorem earlier_eq (a b : ℝ) : earlier a b = min a b := by
  unfold earlier
  split
  · next h => rw [min_eq_left (le_of_lt h)]
  · next h => rw [min_eq_right (not_lt.mp h)]

theorem later_eq (a b : ℝ) : later a b = max a b := by
  unfold later
  split
  · next h => rw [max_eq_left (le_of_lt h)]
  · next h => rw [max_eq_right (not_lt.mp h)]

/-- What the loop has found. -/
theorem loop_range (l : List Gti) : ∀ (n i : Nat) (t : Gti), i + n ≤ l.length → ∃ t', loop (step l) i n t = .ok t' ∧
    (t'.1 ≤ t.1 ∧ (∀ j g, i ≤ j → j < i + n → l[j]? = some g → t'.1 ≤ g.1) ∧
      (t'.1 = t.1 ∨ ∃ j g, i ≤ j ∧ j < i + n ∧ l[j]? = some g ∧ t'.1 = g.1)) ∧
    (t.2 ≤ t'.2 ∧ (∀ j g, i ≤ j → j < i + n → l[j]? = some g → g.2 ≤ t'.2) ∧
      (t'.2 = t.2 ∨ ∃ j g, i ≤ j ∧ j < i + n ∧ l[j]? = some g ∧ t'.2 = g.2))
  | 0, i, t, _ => ⟨t, rfl, ⟨le_refl _, fun j g h1 h2 => by omega, Or.inl rfl⟩, ⟨le_refl _, fun j g h1 h2 => by omega, Or.inl rfl⟩⟩
  | n + 1, i, t, h => by
    have hi : i < l.length := by omega
    have hs : step l i t = .ok (earlier l[i].1 t.1, later l[i].2 t.2) := by
      unfold step
      rw [vget_lt l i hi, Res.bind_ok]
    obtain ⟨t', h1, ⟨a1, a2, a3⟩, ⟨b1, b2, b3⟩⟩ := loop_range l n (i + 1) (earlier l[i].1 t.1, later l[i].2 t.2) (by omega)
    rw [earlier_eq] at a1 a3
    rw [later_eq] at b1 b3
    simp only at a1 a3 b1 b3
    have hg : l[i]? = some l[i] := List.getElem?_eq_getElem hi
    refine ⟨t', by rw [loop, hs, Res.bind_ok, h1], ⟨?_, ?_, ?_⟩, ⟨?_, ?_, ?_⟩⟩
    · exact a1.trans (min_le_right _ _)
    · intro j g hj1 hj2 hjg
      by_cases hji : j = i
      · subst hji
        rw [hg] at hjg
        obtain rfl := Option.some.inj hjg
        exact a1.trans (min_le_left _ _)
      · exact a2 j g (by omega) (by omega) hjg
    · rcases a3 with a3 | ⟨j, g, hj1, hj2, hjg, he⟩
      · rcases min_choice l[i].1 t.1 with hm | hm
        · exact Or.inr ⟨i, l[i], le_refl _, by omega, hg, by rw [a3, hm]⟩
        · exact Or.inl (by rw [a3, hm])
      · exact Or.inr ⟨j, g, by omega, by omega, hjg, he⟩
    · exact (le_max_right _ _).trans b1
    · intro j g hj1 hj2 hjg
      by_cases hji : j = i
      · subst hji
        rw [hg] at hjg
        obtain rfl := Option.some.inj hjg
        exact (le_max_left _ _).trans b1
      · exact b2 j g (by omega) (by omega) hjg
    · rcases b3 with b3 | ⟨j, g, hj1, hj2, hjg, he⟩
      · rcases max_choice l[i].2 t.2 with hm | hm
        · exact Or.inr ⟨i, l[i], le_refl _, by omega, hg, by rw [b3, hm]⟩
        · exact Or.inl (by rw [b3, hm])
      · exact Or.inr ⟨j, g, by omega, by omega, hjg, he⟩

/-- The times for a list of at least one interval: the start is the earliest of all but the last interval, the stop the latest of all but
the first. -/
theorem timeRange_ok (l : List Gti) (a b : Gti) (ha : l.head? = some a) (hb : l.getLast? = some b) :
    ∃ t, timeRange l = .ok t ∧
      t.1 ≤ a.1 ∧ (∀ j g, 1 ≤ j → j + 1 < l.length → l[j]? = some g → t.1 ≤ g.1) ∧
      (t.1 = a.1 ∨ ∃ j g, 1 ≤ j ∧ j + 1 < l.length ∧ l[j]? = some g ∧ t.1 = g.1) ∧
      b.2 ≤ t.2 ∧ (∀ j g, 1 ≤ j → j + 1 < l.length → l[j]? = some g → g.2 ≤ t.2) ∧
      (t.2 = b.2 ∨ ∃ j g, 1 ≤ j ∧ j + 1 < l.length ∧ l[j]? = some g ∧ t.2 = g.2) := by
  have hl : 0 < l.length := by
    cases l with
    | nil => simp at ha
    | cons x l => simp
  unfold timeRange
  rw [ha, hb]
  simp only
  by_cases h2 : 2 ≤ l.length
  · obtain ⟨t, h1, ⟨a1, a2, a3⟩, ⟨b1, b2, b3⟩⟩ := loop_range l (l.length - 1 - 1) 1 (a.1, b.2) (by omega)
    refine ⟨t, h1, a1, fun j g p q => a2 j g p (by omega), ?_, b1, fun j g p q => b2 j g p (by omega), ?_⟩
    · rcases a3 with h | ⟨j, g, p, q, r, s⟩
      · exact Or.inl h
      · exact Or.inr ⟨j, g, p, by omega, r, s⟩
    · rcases b3 with h | ⟨j, g, p, q, r, s⟩
      · exact Or.inl h
      · exact Or.inr ⟨j, g, p, by omega, r, s⟩
  · rw [show l.length - 1 - 1 = 0 by omega]
    exact ⟨(a.1, b.2), rfl, le_refl _, fun j g p q => by omega, Or.inl rfl, le_refl _, fun j g p q => by omega, Or.inl rfl⟩

theorem ends (l : List Gti) (h : l ≠ []) : ∃ a b, l.head? = some a ∧ l.getLast? = some b ∧ l[0]? = some a ∧
    l[l.length - 1]? = some b := by
  refine ⟨l.head h, l.getLast h, List.head?_eq_some_head h, List.getLast?_eq_some_getLast h, ?_, ?_⟩
  · rw [← List.head?_eq_getElem?, List.head?_eq_some_head h]
  · rw [← List.getLast?_eq_getElem?, List.getLast?_eq_some_getLast h]

/-- The start in the header is right unless the last interval is the only one to begin first. -/
theorem C151_start_iff (l : List Gti) (h : 2 ≤ l.length) (b : Gti) (hb : l.getLast? = some b) :
    ∃ t, timeRange l = .ok t ∧ (Earliest l t.1 ↔ ∃ g ∈ l.dropLast, g.1 ≤ b.1) := by
  have hne : l ≠ [] := by
    rintro rfl
    simp at h
  obtain ⟨a, b', ha, hb', h0, hn⟩ := ends l hne
  obtain rfl : b' = b := Option.some.inj (hb'.symm.trans hb)
  obtain ⟨t, h1, a1, a2, a3, -, -, -⟩ := timeRange_ok l a b' ha hb
  have hmem : ∀ j g, j + 1 < l.length → l[j]? = some g → g ∈ l.dropLast := by
    intro j g hj hg
    refine List.mem_of_getElem? (i := j) ?_
    rw [List.getElem?_dropLast, if_pos (by omega), hg]
  have hdl : ∀ g ∈ l.dropLast, t.1 ≤ g.1 := by
    intro g hg
    obtain ⟨j, hj, he⟩ := List.getElem_of_mem hg
    rw [List.length_dropLast] at hj
    have hjg : l[j]? = some g := by
      rw [← he, List.getElem_dropLast]
      exact List.getElem?_eq_getElem (by omega)
    by_cases hj0 : j = 0
    · subst hj0
      rw [h0] at hjg
      obtain rfl := Option.some.inj hjg
      exact a1
    · exact a2 j g (by omega) (by omega) hjg
  have hin : ∃ g ∈ l.dropLast, t.1 = g.1 := by
    rcases a3 with h | ⟨j, g, p, q, r, s⟩
    · exact ⟨a, hmem 0 a (by omega) h0, h⟩
    · exact ⟨g, hmem j g q r, s⟩
  refine ⟨t, h1, ⟨fun he => ?_, fun ⟨g, hg, hle⟩ => ?_⟩⟩
  · obtain ⟨g, hg, hgt⟩ := hin
    exact ⟨g, hg, hgt ▸ he.2 b' (List.mem_of_getElem? hn)⟩
  · refine ⟨?_, fun x hx => ?_⟩
    · obtain ⟨g, hg, hgt⟩ := hin
      exact ⟨g, List.mem_of_mem_dropLast hg, hgt.symm⟩
    · obtain ⟨j, hj, he⟩ := List.getElem_of_mem hx
      by_cases hjl : j + 1 < l.length
      · exact hdl x (hmem j x hjl (by rw [← he]; exact List.getElem?_eq_getElem hj))
      · have : j = l.length - 1 := by omega
        subst this
        rw [List.getElem?_eq_getElem hj] at hn
        rw [← he, Option.some.inj hn]
        exact (hdl g hg).trans hle

/-- The stop in the header is right unless the first interval is the only one to end last. -/
theorem C151_stop_iff (l : List Gti) (h : 2 ≤ l.length) (a : Gti) (ha : l.head? = some a) :
    ∃ t, timeRange l = .ok t ∧ (Latest l t.2 ↔ ∃ g ∈ l.tail, a.2 ≤ g.2) := by
  have hne : l ≠ [] := by
    rintro rfl
    simp at h
  obtain ⟨a', b, ha', hb, h0, hn⟩ := ends l hne
  obtain rfl : a' = a := Option.some.inj (ha'.symm.trans ha)
  obtain ⟨t, h1, -, -, -, b1, b2, b3⟩ := timeRange_ok l a' b ha hb
  have hmem : ∀ j g, 1 ≤ j → l[j]? = some g → g ∈ l.tail := by
    intro j g hj hg
    refine List.mem_of_getElem? (i := j - 1) ?_
    rw [List.getElem?_tail, show j - 1 + 1 = j by omega, hg]
  have hdl : ∀ g ∈ l.tail, g.2 ≤ t.2 := by
    intro g hg
    obtain ⟨j, hj, he⟩ := List.getElem_of_mem hg
    rw [List.length_tail] at hj
    have hjg : l[j + 1]? = some g := by
      rw [← he, List.getElem_tail]
      exact List.getElem?_eq_getElem (by omega)
    by_cases hjl : j + 1 = l.length - 1
    · rw [hjl, hn] at hjg
      obtain rfl := Option.some.inj hjg
      exact b1
    · exact b2 (j + 1) g (by omega) (by omega) hjg
  have hin : ∃ g ∈ l.tail, t.2 = g.2 := by
    rcases b3 with h' | ⟨j, g, p, q, r, s⟩
    · exact ⟨b, hmem (l.length - 1) b (by omega) hn, h'⟩
    · exact ⟨g, hmem j g p r, s⟩
  refine ⟨t, h1, ⟨fun he => ?_, fun ⟨g, hg, hle⟩ => ?_⟩⟩
  · obtain ⟨g, hg, hgt⟩ := hin
    exact ⟨g, hg, hgt ▸ he.2 a' (List.mem_of_getElem? h0)⟩
  · refine ⟨?_, fun x hx => ?_⟩
    · obtain ⟨g, hg, hgt⟩ := hin
      exact ⟨g, List.mem_of_mem_tail hg, hgt.symm⟩
    · obtain ⟨j, hj, he⟩ := List.getElem_of_mem hx
      by_cases hjl : 1 ≤ j
      · exact hdl x (hmem j x hjl (by rw [← he]; exact List.getElem?_eq_getElem hj))
      · have : j = 0 := by omega
        subst this
        rw [List.getElem?_eq_getElem hj] at h0
        rw [← he, Option.some.inj h0]
        exact hle.trans (hdl g hg)

/-- If the source region is as large as the region of the events and the good times are in order, the map is made, with the times of
the whole of the good times; the good times written are those of the livetime cube if there is one, otherwise those of the events.
What is missing for the full property: good times in another order, and none. -/
theorem C151_run_partial (x : Input) (l : List Gti) (hr : x.roiRadius ≤ x.srcRadius) (hl : Times x l) (hne : l ≠ []) (ho : InOrder l) :
    ∃ o, run x = .ok o ∧ o.gtis = l ∧ o.radius = x.srcRadius ∧ Earliest l o.tstart ∧ Latest l o.tstop ∧
      (o.warned = true ↔ x.srcRadius < x.roiRadius + 10) := by
  have hg : goodTimes x = l := by
    unfold goodTimes
    rcases hl with h | ⟨h, h'⟩
    · rw [h]
    · rw [h, h']
  obtain ⟨a, b, ha, hb, h0, hn⟩ := ends l hne
  have hlen : 0 < l.length := List.length_pos_iff.mpr hne
  have htimes : ∃ t, timeRange l = .ok t ∧ Earliest l t.1 ∧ Latest l t.2 := by
    by_cases h2 : 2 ≤ l.length
    · obtain ⟨t, e1, e2⟩ := C151_start_iff l h2 b hb
      obtain ⟨t', f1, f2⟩ := C151_stop_iff l h2 a ha
      obtain rfl : t' = t := Res.ok.inj (f1.symm.trans e1)
      have hp := (List.pairwise_iff_getElem.mp ho) 0 (l.length - 1) hlen (by omega) (by omega)
      rw [List.getElem?_eq_getElem hlen] at h0
      rw [List.getElem?_eq_getElem (by omega)] at hn
      rw [Option.some.inj h0, Option.some.inj hn] at hp
      refine ⟨t', e1, e2.mpr ⟨a, ?_, hp.1⟩, f2.mpr ⟨b, ?_, hp.2⟩⟩
      · refine List.mem_of_getElem? (i := 0) ?_
        rw [List.getElem?_dropLast, if_pos (by omega), List.getElem?_eq_getElem hlen, Option.some.inj h0]
      · refine List.mem_of_getElem? (i := l.length - 2) ?_
        rw [List.getElem?_tail, show l.length - 2 + 1 = l.length - 1 by omega, List.getElem?_eq_getElem (by omega), Option.some.inj hn]
    · match l, hne with
      | [g], _ =>
        refine ⟨(g.1, g.2), by unfold timeRange; simp [loop], ⟨⟨g, by simp, rfl⟩, fun y hy => ?_⟩, ⟨⟨g, by simp, rfl⟩, fun y hy => ?_⟩⟩
        · rw [List.mem_singleton.mp hy]
        · rw [List.mem_singleton.mp hy]
      | _ :: _ :: _, _ => simp at h2
  obtain ⟨t, t1, t2, t3⟩ := htimes
  by_cases hw : x.srcRadius < x.roiRadius + 10
  · refine ⟨⟨true, x.srcRadius, t.1, t.2, l⟩, ?_, rfl, rfl, t2, t3, by simp [hw]⟩
    unfold run sourceRegion
    rw [if_pos hw, if_neg (not_lt.mpr hr), Res.bind_ok, hg, t1, Res.bind_ok]
  · refine ⟨⟨false, x.srcRadius, t.1, t.2, l⟩, ?_, rfl, rfl, t2, t3, by simp [hw]⟩
    unfold run sourceRegion
    rw [if_neg hw, Res.bind_ok, hg, t1, Res.bind_ok]

example : InOrder [((0 : ℝ), 1), (2, 3), (4, 7)] := by
  unfold InOrder
  simp
  norm_num

/-- A source region that is smaller than the region of the events is refused, whatever the rest. -/
theorem C151_region_refused (x : Input) : (x.srcRadius < x.roiRadius → run x = .throws) ∧
    (x.roiRadius ≤ x.srcRadius → run x ≠ .throws) := by
  constructor
  · intro h
    unfold run sourceRegion
    rw [if_pos (by linarith), if_pos h]
    rfl
  · intro h hc
    have hs : ∃ w, sourceRegion x.srcRadius x.roiRadius = .ok w := by
      unfold sourceRegion
      by_cases hw : x.srcRadius < x.roiRadius + 10
      · exact ⟨true, by rw [if_pos hw, if_neg (not_lt.mpr h)]⟩
      · exact ⟨false, by rw [if_neg hw]⟩
    obtain ⟨w, hw⟩ := hs
    unfold run at hc
    rw [hw, Res.bind_ok] at hc
    by_cases hne : goodTimes x = []
    · rw [hne] at hc
      unfold timeRange at hc
      simp at hc
    · obtain ⟨a, b, ha, hb, -⟩ := ends _ hne
      obtain ⟨t, ht, -⟩ := timeRange_ok _ a b ha hb
      rw [ht, Res.bind_ok] at hc
      cases hc

/-- Without good times the behaviour is undefined. -/
theorem C151_empty_violates (x : Input) (hr : x.roiRadius ≤ x.srcRadius) (hl : Times x []) : run x = .ub := by
  have hg : goodTimes x = [] := by
    unfold goodTimes
    rcases hl with h | ⟨h, h'⟩
    · rw [h]
    · rw [h, h']
  unfold run
  rw [hg]
  have hs : ∃ w, sourceRegion x.srcRadius x.roiRadius = .ok w := by
    unfold sourceRegion
    by_cases hw : x.srcRadius < x.roiRadius + 10
    · exact ⟨true, by rw [if_pos hw, if_neg (not_lt.mpr hr)]⟩
    · exact ⟨false, by rw [if_neg hw]⟩
  obtain ⟨w, hw⟩ := hs
  rw [hw, Res.bind_ok]
  rfl

example : Times ⟨20, 10, [(0, 1)], some []⟩ [] := Or.inl rfl

/-- Two disjoint intervals, the later one first: the header says that the data stop before they start. -/
theorem C151_reversed_violates (x : Input) (a b c d : ℝ) (hr : x.roiRadius ≤ x.srcRadius) (hl : Times x [(a, b), (c, d)])
    (h1 : c < d) (h2 : d < a) (h3 : a < b) :
    ∃ o, run x = .ok o ∧ o.tstop < o.tstart ∧ ¬ Earliest o.gtis o.tstart ∧ ¬ Latest o.gtis o.tstop := by
  have hg : goodTimes x = [(a, b), (c, d)] := by
    unfold goodTimes
    rcases hl with h | ⟨h, h'⟩
    · rw [h]
    · rw [h, h']
  have ht : timeRange [(a, b), (c, d)] = .ok (a, d) := by
    unfold timeRange
    simp [loop]
  have hs : ∃ w, sourceRegion x.srcRadius x.roiRadius = .ok w := by
    unfold sourceRegion
    by_cases hw : x.srcRadius < x.roiRadius + 10
    · exact ⟨true, by rw [if_pos hw, if_neg (not_lt.mpr hr)]⟩
    · exact ⟨false, by rw [if_neg hw]⟩
  obtain ⟨w, hw⟩ := hs
  refine ⟨⟨w, x.srcRadius, a, d, [(a, b), (c, d)]⟩, ?_, h2, fun he => ?_, fun he => ?_⟩
  · unfold run
    rw [hw, Res.bind_ok, hg, ht, Res.bind_ok]
  · have := he.2 (c, d) (by simp)
    simp only at this
    linarith
  · have := he.2 (a, b) (by simp)
    simp only at this
    linarith

example : Times ⟨20, 10, [(5, 6), (1, 2)], none⟩ [(5, 6), (1, 2)] := Or.inr ⟨rfl, rfl⟩

end Verif.ExpApp
