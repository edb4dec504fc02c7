import Mathlib.Tactic.Linarith
import Mathlib.Algebra.Order.BigOperators.Group.List
import Mathlib.Data.List.Pairwise
import Verif.Livetime.Model
import Verif.Livetime.Spec
/-
Lemmas on overlaps of intervals.
-/
set_option linter.unusedSectionVars false
set_option linter.unusedSimpArgs false
set_option linter.unusedVariables false
namespace Verif.Livetime
open MeasureTheory Set
open Verif.Livetime.Spec

theorem overlap_nonneg (a b : ℝ × ℝ) : 0 ≤ overlap a b := by
  unfold overlap
  simp only []
  split
  · rename_i h; linarith
  · exact le_rfl

theorem overlap_eq_zero {a b : ℝ × ℝ} (h : a.2 ≤ b.1 ∨ b.2 ≤ a.1) : overlap a b = 0 := by
  unfold overlap
  simp only []
  rw [if_neg]
  rw [not_lt]
  rcases h with h | h
  · exact (min_le_left _ _).trans (h.trans (le_max_right _ _))
  · exact (min_le_right _ _).trans (h.trans (le_max_left _ _))

theorem overlap_vol (a b : ℝ × ℝ) : overlap a b = (volume (Icc a.1 a.2 ∩ Icc b.1 b.2)).toReal := by
  rw [Icc_inter_Icc, Real.volume_Icc]
  unfold overlap
  simp only []
  split
  · rename_i h
    rw [ENNReal.toReal_ofReal (sub_nonneg.2 h.le)]
  · rename_i h
    rw [ENNReal.ofReal_of_nonpos, ENNReal.toReal_zero]
    exact sub_nonpos.2 (not_lt.1 h)

/-- The union of the intervals. -/
def union (l : List (ℝ × ℝ)) : Set ℝ := {t | ∃ g ∈ l, g.1 ≤ t ∧ t ≤ g.2}

theorem union_cons (g : ℝ × ℝ) (l : List (ℝ × ℝ)) : union (g :: l) = Icc g.1 g.2 ∪ union l := by
  ext t
  simp [union]

theorem union_meas (l : List (ℝ × ℝ)) : MeasurableSet (union l) := by
  induction l with
  | nil => simp [union]
  | cons g l ih => rw [union_cons]; exact measurableSet_Icc.union ih

/-- The measure of a union of ordered intervals within an interval is the sum of the
overlaps. -/
theorem union_vol {l : List (ℝ × ℝ)} (h : Ordered l) (c : ℝ × ℝ) :
    (volume (union l ∩ Icc c.1 c.2)).toReal = (l.map fun g => overlap g c).sum := by
  induction l with
  | nil => simp [union]
  | cons g l ih =>
    have hl : Ordered l := ⟨fun x hx => h.1 x (List.mem_cons_of_mem _ hx), (List.pairwise_cons.1 h.2).2⟩
    have hfin : ∀ s : Set ℝ, volume (s ∩ Icc c.1 c.2) ≠ ⊤ := fun s =>
      ((measure_mono inter_subset_right).trans_lt (by rw [Real.volume_Icc]; exact ENNReal.ofReal_lt_top)).ne
    rw [union_cons, union_inter_distrib_right, measure_union₀ ((union_meas l).inter measurableSet_Icc).nullMeasurableSet,
      ENNReal.toReal_add (hfin _) (hfin _), ih hl, List.map_cons, List.sum_cons, overlap_vol]
    refine measure_mono_null (t := {g.2}) ?_ Real.volume_singleton
    rintro t ⟨⟨⟨_, h1⟩, _⟩, ⟨⟨x, hx, h2, _⟩, _⟩⟩
    have := (List.pairwise_cons.1 h.2).1 x hx
    exact le_antisymm h1 (this.trans h2)

theorem overlaps_eq (k c : ℝ × ℝ) : ((overlaps k c).1 = true → (overlaps k c).2.1 < (overlaps k c).2.2 ∧
      Icc (overlaps k c).2.1 (overlaps k c).2.2 = Icc k.1 k.2 ∩ Icc c.1 c.2) ∧
    ((overlaps k c).1 = false → volume (Icc k.1 k.2 ∩ Icc c.1 c.2) = 0) := by
  unfold overlaps
  simp only []
  split
  · rename_i h
    refine ⟨fun _ => ⟨h, ?_⟩, fun h => by cases h⟩
    rw [Icc_inter_Icc]
  · rename_i h
    refine ⟨fun h => (by cases h), fun _ => ?_⟩
    rw [Icc_inter_Icc, Real.volume_Icc, ENNReal.ofReal_of_nonpos]
    exact sub_nonpos.2 (not_lt.1 h)

theorem applyCuts_eq (cuts : List (ℝ × ℝ)) (c : ℝ × ℝ) (hc : c.1 < c.2) :
    (∀ d, applyCuts cuts c = some d → d.1 < d.2 ∧
      Icc d.1 d.2 = {t | (∀ k ∈ cuts, k.1 ≤ t ∧ t ≤ k.2) ∧ c.1 ≤ t ∧ t ≤ c.2}) ∧
    (applyCuts cuts c = none → volume {t | (∀ k ∈ cuts, k.1 ≤ t ∧ t ≤ k.2) ∧ c.1 ≤ t ∧ t ≤ c.2} = 0) := by
  induction cuts generalizing c with
  | nil =>
    refine ⟨fun d h => ?_, fun h => by simp [applyCuts] at h⟩
    simp only [applyCuts, Option.some.injEq] at h
    subst h
    refine ⟨hc, ?_⟩
    ext t; simp
  | cons k cuts ih =>
    have ho := overlaps_eq k c
    cases hb : (overlaps k c).1 with
    | true =>
      obtain ⟨h1, h2⟩ := ho.1 hb
      have hset : {t | (∀ x ∈ cuts, x.1 ≤ t ∧ t ≤ x.2) ∧ (overlaps k c).2.1 ≤ t ∧ t ≤ (overlaps k c).2.2} =
          {t | (∀ x ∈ k :: cuts, x.1 ≤ t ∧ t ≤ x.2) ∧ c.1 ≤ t ∧ t ≤ c.2} := by
        ext t
        have : t ∈ Icc (overlaps k c).2.1 (overlaps k c).2.2 ↔ t ∈ Icc k.1 k.2 ∩ Icc c.1 c.2 := by rw [h2]
        simp only [mem_Icc, mem_inter_iff] at this
        simp only [Set.mem_ofPred_eq, List.mem_cons, forall_eq_or_imp, this]
        tauto
      rw [← hset]
      have := ih (overlaps k c).2 h1
      unfold applyCuts
      rw [if_pos hb]
      exact this
    | false =>
      unfold applyCuts
      rw [if_neg (by simp [hb])]
      refine ⟨fun d h => (by cases h), fun _ => measure_mono_null ?_ (ho.2 hb)⟩
      rintro t ⟨h1, h2, h3⟩
      exact ⟨h1 k (List.mem_cons_self ..), h2, h3⟩

theorem sum_zero {α : Type} {l : List α} {f : α → ℝ} (h : ∀ x ∈ l, f x = 0) : (l.map f).sum = 0 := by
  induction l with
  | nil => rfl
  | cons x l ih =>
    rw [List.map_cons, List.sum_cons, h x (List.mem_cons_self ..), ih fun y hy => h y (List.mem_cons_of_mem _ hy), zero_add]

/-- Only intervals without overlap are left out. -/
theorem chosen_sum {gtis : List (ℝ × ℝ)} (h : Ordered gtis) (c : ℝ × ℝ) :
    ((chosen gtis c).map fun g => overlap g c).sum = (gtis.map fun g => overlap g c).sum := by
  classical
  unfold chosen
  simp only []
  set u := upperFirst gtis c.1 with hu
  set first := if u ≠ 0 then u - 1 else u with hfirst
  set rest := gtis.drop first with hrest
  set last := upperSecond rest c.2 with hlast
  have hule : u ≤ gtis.length := List.findIdx_le_length
  have hpw := List.pairwise_iff_getElem.1 h.2
  have e1 : (gtis.map fun g => overlap g c).sum = (rest.map fun g => overlap g c).sum := by
    conv_lhs => rw [← List.take_append_drop first gtis, List.map_append, List.sum_append]
    rw [sum_zero, zero_add]
    intro g hg
    obtain ⟨i, hi, rfl⟩ := List.mem_iff_getElem.1 hg
    rw [List.length_take] at hi
    rw [List.getElem_take]
    have hu0 : u ≠ 0 := by
      intro h0
      rw [hfirst, h0] at hi
      simp at hi
    have hfu : first = u - 1 := by rw [hfirst, if_pos hu0]
    have hlt : u - 1 < gtis.length := by omega
    have h1 := hpw i (u - 1) (by omega) hlt (by omega)
    have h2 : ¬ c.1 < (gtis[u - 1]).1 := by
      have := List.not_of_lt_findIdx (p := fun g : ℝ × ℝ => decide (c.1 < g.1)) (xs := gtis) (i := u - 1) (by
        rw [hu] at hu0 ⊢
        unfold upperFirst at hu0 ⊢
        omega)
      simpa using this
    exact overlap_eq_zero (Or.inl (h1.trans (not_lt.1 h2)))
  rw [e1]
  by_cases hl : last = rest.length
  · rw [if_neg (not_not.2 hl), hl, List.take_length]
  · rw [if_pos hl]
    conv_rhs => rw [← List.take_append_drop (last + 1) rest, List.map_append, List.sum_append]
    rw [left_eq_add]
    refine sum_zero ?_
    intro g hg
    obtain ⟨i, hi, rfl⟩ := List.mem_iff_getElem.1 hg
    rw [List.length_drop] at hi
    rw [List.getElem_drop]
    have hlle : last ≤ rest.length := List.findIdx_le_length
    have hlt : last < rest.length := by omega
    have h1 : c.2 < (rest[last]).2 := by
      have := List.findIdx_getElem (p := fun g : ℝ × ℝ => decide (c.2 < g.2)) (xs := rest) (w := hlt)
      exact of_decide_eq_true this
    have hpr : rest.Pairwise fun a b => a.2 ≤ b.1 := h.2.sublist (List.drop_sublist _ _)
    have h2 := List.pairwise_iff_getElem.1 hpr last (last + 1 + i) hlt (by omega) (by omega)
    exact overlap_eq_zero (Or.inr (h1.le.trans h2))

end Verif.Livetime
