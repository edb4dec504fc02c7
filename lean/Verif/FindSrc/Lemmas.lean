import Mathlib.Tactic.Linarith
import Mathlib.Tactic.Ring
import Mathlib.Tactic.FieldSimp
import Mathlib.Tactic.Positivity
import Verif.FindSrc.Model
import Verif.FindSrc.Spec
/-
Lemmas about gtfindsrc.
-/
set_option linter.unusedSectionVars false
set_option linter.unusedSimpArgs false
set_option linter.unusedVariables false

namespace Verif.FindSrc

open Verif

variable {B S : Type}

/-! ### sorting -/

instance : IsTotal Pt Above := ⟨fun a b => le_total b.value a.value⟩
instance : IsTrans Pt Above := ⟨fun a b c h1 h2 => le_trans (b := b.value) h2 h1⟩

theorem sorted_perm (ps : List Pt) : (sortPoints ps).Perm ps := by
  classical
  unfold sortPoints; exact List.perm_insertionSort _ _

theorem sorted_pairwise (ps : List Pt) : (sortPoints ps).Pairwise Above := by
  classical
  unfold sortPoints; exact List.pairwise_insertionSort _ _

theorem last_least {l : List Pt} {p : Pt} (h : l.Pairwise Above) (hl : l.getLast? = some p) :
    ∀ q ∈ l, p.value ≤ q.value := by
  intro q hq
  obtain ⟨l', rfl⟩ : ∃ l', l = l' ++ [p] := by
    have hne : l ≠ [] := by rintro rfl; cases hl
    refine ⟨l.dropLast, ?_⟩
    rw [List.getLast?_eq_getLast hne] at hl
    rw [← Option.some.inj hl]
    exact (List.dropLast_append_getLast hne).symm
  rcases List.mem_append.1 hq with h1 | h1
  · exact (List.pairwise_append.1 h).2.2 q h1 p (by simp)
  · rw [List.mem_singleton.1 h1]

open Classical in
theorem insert_last (a : Pt) (l : List Pt) (p : Pt) (hs : l.Pairwise Above)
    (h : (l.orderedInsert Above a).getLast? = some p) :
    (p = a ∧ ∀ q ∈ l, a.value < q.value) ∨ l.getLast? = some p := by
  induction l with
  | nil =>
    simp at h
    exact Or.inl ⟨h.symm, fun q hq => by cases hq⟩
  | cons b l ih =>
    rw [List.orderedInsert] at h
    by_cases hab : Above a b
    · rw [if_pos hab] at h
      right
      rw [List.getLast?_cons_cons] at h
      exact h
    · rw [if_neg hab] at h
      have hlt : a.value < b.value := not_le.1 hab
      have hs' := List.pairwise_cons.1 hs
      have hne : l.orderedInsert Above a ≠ [] := by
        intro he
        have := List.orderedInsert_length (r := Above) l a
        rw [he] at this
        simp at this
      have h' : (l.orderedInsert Above a).getLast? = some p := by
        rw [← h]
        cases hl : l.orderedInsert Above a with
        | nil => exact absurd hl hne
        | cons x y => rw [List.getLast?_cons_cons]
      rcases ih hs'.2 h' with ⟨h1, h2⟩ | h1
      · left
        refine ⟨h1, fun q hq => ?_⟩
        rcases List.mem_cons.1 hq with rfl | hq
        · exact hlt
        · exact h2 q hq
      · right
        cases l with
        | nil => cases h1
        | cons x y => rw [List.getLast?_cons_cons]; exact h1

theorem sort_best (ps : List Pt) (p : Pt) (h : (sortPoints ps).getLast? = some p) :
    Spec.Best ps p := by
  classical
  refine ⟨fun q hq => last_least (sorted_pairwise ps) h q ((sorted_perm ps).mem_iff.2 hq), ?_⟩
  induction ps with
  | nil => cases h
  | cons a ps ih =>
    have e : sortPoints (a :: ps) = (sortPoints ps).orderedInsert Above a := rfl
    rw [e] at h
    rcases insert_last a _ p (sorted_pairwise ps) h with ⟨h1, h2⟩ | h1
    · refine ⟨[], ps, by rw [h1]; rfl, fun q hq => ?_⟩
      rw [h1]
      exact h2 q ((sorted_perm ps).mem_iff.2 hq)
    · obtain ⟨l₁, l₂, h3, h4⟩ := ih h1
      exact ⟨a :: l₁, l₂, by rw [h3]; rfl, h4⟩

theorem sort_last {ps : List Pt} (h : ps ≠ []) : ∃ p, (sortPoints ps).getLast? = some p := by
  have hne : sortPoints ps ≠ [] := by
    intro he
    have := (sorted_perm ps).length_eq
    rw [he] at this
    exact h (List.length_eq_zero_iff.1 this.symm)
  exact ⟨_, List.getLast?_eq_getLast hne⟩

/-! ### the line -/

theorem foldl_shift (f : ℝ × ℝ → ℝ) (l : List (ℝ × ℝ)) (a : ℝ) :
    l.foldl (fun a z => a + f z) a = a + sumBy f l := by
  unfold sumBy
  induction l generalizing a with
  | nil => simp
  | cons z l ih =>
    rw [List.foldl_cons, List.foldl_cons, ih, ih (0 + f z)]; ring

theorem sumBy_cons (f : ℝ × ℝ → ℝ) (z : ℝ × ℝ) (l : List (ℝ × ℝ)) :
    sumBy f (z :: l) = f z + sumBy f l := by
  rw [sumBy, List.foldl_cons, foldl_shift, zero_add]

theorem spread_cons (x : ℝ) (l : List (ℝ × ℝ)) :
    (l.length : ℝ) * (x * x) + sumBy (fun z => z.1 * z.1) l - 2 * x * sumBy (fun z => z.1) l =
      sumBy (fun z => (x - z.1) ^ 2) l := by
  induction l with
  | nil => simp [sumBy]
  | cons z l ih =>
    rw [sumBy_cons, sumBy_cons, sumBy_cons, ← ih, List.length_cons]
    push_cast
    ring

theorem squares_nonneg (x : ℝ) (l : List (ℝ × ℝ)) : 0 ≤ sumBy (fun z => (x - z.1) ^ 2) l := by
  induction l with
  | nil => simp [sumBy]
  | cons z l ih => rw [sumBy_cons]; positivity

theorem squares_pos (x : ℝ) (l : List (ℝ × ℝ)) (h : ∃ z ∈ l, z.1 ≠ x) :
    0 < sumBy (fun z => (x - z.1) ^ 2) l := by
  induction l with
  | nil => obtain ⟨z, hz, _⟩ := h; cases hz
  | cons y l ih =>
    rw [sumBy_cons]
    by_cases hy : y.1 = x
    · obtain ⟨z, hz, hne⟩ := h
      rcases List.mem_cons.1 hz with rfl | hz
      · exact absurd hy hne
      · have := ih ⟨z, hz, hne⟩
        positivity
    · have h1 : 0 < (x - y.1) ^ 2 := by
        have : x - y.1 ≠ 0 := fun he => hy (by linarith)
        positivity
      have := squares_nonneg x l
      linarith

/-- The denominator of the slope. -/
def den (l : List (ℝ × ℝ)) : ℝ :=
  (l.length : ℝ) * sumBy (fun z => z.1 * z.1) l - sumBy (fun z => z.1) l * sumBy (fun z => z.1) l

theorem den_cons (z : ℝ × ℝ) (l : List (ℝ × ℝ)) :
    den (z :: l) = den l + sumBy (fun y => (z.1 - y.1) ^ 2) l := by
  rw [← spread_cons]
  unfold den
  rw [sumBy_cons, sumBy_cons, List.length_cons]
  push_cast
  ring

theorem den_nonneg (l : List (ℝ × ℝ)) : 0 ≤ den l := by
  induction l with
  | nil => simp [den, sumBy]
  | cons z l ih => rw [den_cons]; exact add_nonneg ih (squares_nonneg _ _)

theorem den_pos (l : List (ℝ × ℝ)) (a b : ℝ × ℝ) (ha : a ∈ l) (hb : b ∈ l) (h : a.1 ≠ b.1) :
    0 < den l := by
  induction l with
  | nil => cases ha
  | cons z l ih =>
    rw [den_cons]
    by_cases hz : ∃ y ∈ l, y.1 ≠ z.1
    · have := squares_pos z.1 l hz
      have := den_nonneg l
      linarith
    · push Not at hz
      have e : ∀ y ∈ z :: l, y.1 = z.1 := by
        intro y hy
        rcases List.mem_cons.1 hy with rfl | hy
        · rfl
        · exact hz y hy
      exact absurd ((e a ha).trans (e b hb).symm) h

theorem line (l : List (ℝ × ℝ)) (m A : ℝ) (h : ∀ z ∈ l, z.2 = m + A * z.1) :
    sumBy (fun z => z.2) l = (l.length : ℝ) * m + A * sumBy (fun z => z.1) l ∧
    sumBy (fun z => z.1 * z.2) l = m * sumBy (fun z => z.1) l + A * sumBy (fun z => z.1 * z.1) l := by
  induction l with
  | nil => simp [sumBy]
  | cons z l ih =>
    obtain ⟨h1, h2⟩ := ih (fun y hy => h y (List.mem_cons_of_mem _ hy))
    rw [sumBy_cons, sumBy_cons, sumBy_cons, sumBy_cons, h1, h2, h z List.mem_cons_self,
      List.length_cons]
    push_cast
    constructor <;> ring

/-! ### the search -/

/-- Each point was tried with some state of the other sources and some spectrum. -/
def Tried (e : Setup B S) (o : Opts) (s₀ : S) (q : Pt) : Prop :=
  ∃ b s, q.value = -e.logLike b (place e o q.at') s - e.offset + 1 ∧
    (o.reopt = false → s = s₀)

theorem search_ok (e : Setup B S) (o : Opts) (s₀ : S) (cs : List (ℝ × ℝ)) (st st' : St B S)
    (h : search e o s₀ cs st = .ok st') :
    ∃ n, n ≤ cs.length ∧ st'.points.map (·.at') = st.points.map (·.at') ++ cs.take n ∧
      (cs ≠ [] → 0 < n) ∧
      ((∀ q ∈ st.points, Tried e o s₀ q) → ∀ q ∈ st'.points, Tried e o s₀ q) ∧
      (o.reopt = false → st'.others = st.others ∧ (st.spec = s₀ → st'.spec = s₀) ∧
        ((∀ q ∈ st.points, q.value = -e.logLike st.others (place e o q.at') s₀ - e.offset + 1) →
          ∀ q ∈ st'.points,
            q.value = -e.logLike st.others (place e o q.at') s₀ - e.offset + 1)) := by
  induction cs generalizing st with
  | nil =>
    rw [search] at h
    cases Res.ok.inj h
    exact ⟨0, Nat.le_refl _, by simp, fun h => absurd rfl h, fun h => h,
      fun _ => ⟨rfl, fun h => h, fun h => h⟩⟩
  | cons c cs ih =>
    rw [search] at h
    obtain ⟨st₁, h1, h2⟩ := Res.bind_eq_ok.1 h
    unfold eval at h1
    obtain ⟨r, hr, h3⟩ := Res.bind_eq_ok.1 h1
    have h3 := (Res.ok.inj h3).symm
    have hp : st₁.points.map (·.at') = st.points.map (·.at') ++ [c] := by rw [h3]; simp
    have hroff : o.reopt = false → r = (st.others, s₀) := by
      intro ho
      unfold refit at hr
      rw [ho, if_neg (by simp)] at hr
      exact (Res.ok.inj hr).symm
    have ht : (∀ q ∈ st.points, Tried e o s₀ q) → ∀ q ∈ st₁.points, Tried e o s₀ q := by
      intro hq q hmem
      rw [h3] at hmem
      rcases List.mem_append.1 hmem with hm | hm
      · exact hq q hm
      · rw [List.mem_singleton.1 hm]
        exact ⟨r.1, r.2, rfl, fun ho => by rw [hroff ho]⟩
    have hv : o.reopt = false → st₁.others = st.others ∧ st₁.spec = s₀ ∧
        ((∀ q ∈ st.points, q.value = -e.logLike st.others (place e o q.at') s₀ - e.offset + 1) →
          ∀ q ∈ st₁.points,
            q.value = -e.logLike st.others (place e o q.at') s₀ - e.offset + 1) := by
      intro ho
      have := hroff ho
      rw [h3, this]
      refine ⟨rfl, rfl, fun hq q hm => ?_⟩
      rcases List.mem_append.1 hm with hm | hm
      · exact hq q hm
      · rw [List.mem_singleton.1 hm]
    by_cases hc : close e o st₁.points = true
    · rw [if_pos hc] at h2
      cases Res.ok.inj h2
      exact ⟨1, by simp, by rw [hp]; simp, fun _ => Nat.one_pos, ht,
        fun ho => ⟨(hv ho).1, fun _ => (hv ho).2.1, (hv ho).2.2⟩⟩
    · rw [if_neg hc] at h2
      obtain ⟨n, i1, i2, _, i4, i5⟩ := ih st₁ h2
      refine ⟨n + 1, by simpa using i1, by rw [i2, hp]; simp, fun _ => Nat.succ_pos _,
        fun hq => i4 (ht hq), fun ho => ?_⟩
      obtain ⟨j1, j2, j3⟩ := i5 ho
      refine ⟨j1.trans (hv ho).1, fun _ => j2 (hv ho).2.1, fun hq => ?_⟩
      have := j3 (by rw [(hv ho).1]; exact (hv ho).2.2 hq)
      rw [(hv ho).1] at this
      exact this

end Verif.FindSrc
