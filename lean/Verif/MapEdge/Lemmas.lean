import Verif.MapEdge.Model
import Verif.MapEdge.Spec
import Mathlib.Tactic.Linarith
import Mathlib.Tactic.Ring
import Mathlib.Tactic.Positivity
set_option linter.unusedSimpArgs false
set_option linter.unusedVariables false
/-
The list of the corners at the edge.
-/
namespace Verif.MapEdge
open Verif Spec

variable {α β δ : Type}

/-- All calls succeed. -/
theorem mapM_mem {f : α → Res β} : ∀ (l : List α), (∀ a ∈ l, ∃ b, f a = .ok b) →
    ∃ bs, l.mapM f = .ok bs ∧ bs.length = l.length ∧ ∀ b, b ∈ bs ↔ ∃ a ∈ l, f a = .ok b
  | [], _ => ⟨[], rfl, rfl, by simp⟩
  | a :: l, h => by
    obtain ⟨b, hb⟩ := h a List.mem_cons_self
    obtain ⟨bs, h1, h2, h3⟩ := mapM_mem l (fun x hx => h x (List.mem_cons_of_mem _ hx))
    refine ⟨b :: bs, ?_, by simp [h2], ?_⟩
    · rw [List.mapM_cons, hb, Res.bind_ok, h1]
      rfl
    · intro c
      rw [List.mem_cons, h3]
      constructor
      · rintro (rfl | ⟨x, hx, hc⟩)
        · exact ⟨a, List.mem_cons_self, hb⟩
        · exact ⟨x, List.mem_cons_of_mem _ hx, hc⟩
      · rintro ⟨x, hx, hc⟩
        rcases List.mem_cons.mp hx with rfl | hx
        · rw [hb] at hc
          exact .inl (Res.ok.inj hc).symm
        · exact .inr ⟨x, hx, hc⟩

/-- A call throws and none is undefined. -/
theorem mapM_throws {f : α → Res β} : ∀ (l : List α), (∀ a ∈ l, f a ≠ .ub) → (∃ a ∈ l, f a = .throws) →
    l.mapM f = .throws
  | [], _, h => by obtain ⟨a, ha, _⟩ := h; cases ha
  | a :: l, hu, h => by
    rw [List.mapM_cons]
    cases ha : f a with
    | ub => exact absurd ha (hu a List.mem_cons_self)
    | throws => rfl
    | ok b =>
      obtain ⟨x, hx, hxt⟩ := h
      rcases List.mem_cons.mp hx with rfl | hx
      · rw [ha] at hxt; cases hxt
      · rw [Res.bind_ok, mapM_throws l (fun y hy => hu y (List.mem_cons_of_mem _ hy)) ⟨x, hx, hxt⟩]
        rfl

/-- Calls that are not undefined succeed or one of them throws. -/
theorem mapM_cases {f : α → Res β} (l : List α) (hu : ∀ a ∈ l, f a ≠ .ub) :
    (∃ bs, l.mapM f = .ok bs) ∨ l.mapM f = .throws := by
  by_cases h : ∃ a ∈ l, f a = .throws
  · exact .inr (mapM_throws l hu h)
  · obtain ⟨bs, h1, _⟩ := mapM_mem (f := f) l (fun a ha => by
      cases hf : f a with
      | ok b => exact ⟨b, rfl⟩
      | throws => exact absurd ⟨a, ha, hf⟩ h
      | ub => exact absurd hf (hu a ha))
    exact .inl ⟨bs, h1⟩

theorem axis_length (n : Nat) : (axis n).length = n + 1 := by
  simp [axis]

theorem axis_get {n i : Nat} (h : i ≤ n) : (axis n)[i]? = some ((i : ℝ) + 1 / 2) := by
  unfold axis
  rcases Nat.lt_or_eq_of_le h with h | h
  · rw [List.getElem?_append_left (by simpa using h)]
    simp [h]
    ring
  · subst h
    rw [List.getElem?_append_right (by simp)]
    simp

theorem mem_axis {n : Nat} {v : ℝ} : v ∈ axis n ↔ ∃ i : Nat, i ≤ n ∧ v = (i : ℝ) + 1 / 2 := by
  rw [List.mem_iff_getElem?]
  constructor
  · rintro ⟨i, hi⟩
    have hlt : i < (axis n).length := by
      by_contra hc
      rw [List.getElem?_eq_none (by omega)] at hi
      cases hi
    rw [axis_length] at hlt
    rw [axis_get (by omega)] at hi
    exact ⟨i, by omega, (Option.some.inj hi).symm⟩
  · rintro ⟨i, hi, rfl⟩
    exact ⟨i, axis_get hi⟩

theorem at_axis {n i : Nat} (h : i ≤ n) : atIdx (axis n) i = .ok ((i : ℝ) + 1 / 2) := by
  unfold atIdx
  rw [axis_get h]

theorem column_eq (proj : Pos → Res δ) {nx ny i : Nat} (h : i ≤ nx) :
    column proj (axis nx) (axis ny) i = (axis ny).mapM fun y => proj ⟨(i : ℝ) + 1 / 2, y⟩ := by
  unfold column
  simp only [at_axis h, Res.bind_ok]

theorem row_eq (proj : Pos → Res δ) {nx ny j : Nat} (h : j ≤ ny) :
    row proj (axis nx) (axis ny) j = (axis nx).mapM fun x => proj ⟨x, (j : ℝ) + 1 / 2⟩ := by
  unfold row
  simp only [at_axis h, Res.bind_ok]

theorem boundary_eq (proj : Pos → Res δ) (nx ny : Nat) :
    boundary proj nx ny = (do
      let a ← (axis ny).mapM fun y => proj ⟨((0 : Nat) : ℝ) + 1 / 2, y⟩
      let b ← (axis ny).mapM fun y => proj ⟨(nx : ℝ) + 1 / 2, y⟩
      let c ← (axis nx).mapM fun x => proj ⟨x, ((0 : Nat) : ℝ) + 1 / 2⟩
      let d ← (axis nx).mapM fun x => proj ⟨x, (ny : ℝ) + 1 / 2⟩
      .ok (a ++ b ++ c ++ d)) := by
  unfold boundary
  rw [axis_length, axis_length, Nat.add_sub_cancel, Nat.add_sub_cancel, column_eq proj (Nat.zero_le _),
    column_eq proj (Nat.le_refl _), row_eq proj (Nat.zero_le _), row_eq proj (Nat.le_refl _)]

theorem corner_col {nx ny i : Nat} (hi : i = 0 ∨ i = nx) {y : ℝ} (hy : y ∈ axis ny) :
    EdgeCorner nx ny ⟨(i : ℝ) + 1 / 2, y⟩ := by
  obtain ⟨j, hj, rfl⟩ := mem_axis.mp hy
  exact ⟨i, j, by omega, hj, by omega, rfl⟩

theorem corner_row {nx ny j : Nat} (hj : j = 0 ∨ j = ny) {x : ℝ} (hx : x ∈ axis nx) :
    EdgeCorner nx ny ⟨x, (j : ℝ) + 1 / 2⟩ := by
  obtain ⟨i, hi, rfl⟩ := mem_axis.mp hx
  exact ⟨i, j, hi, by omega, by omega, rfl⟩

/-- The smallest value. -/
theorem least_spec (f : δ → ℝ) : ∀ (l : List δ) (r : ℝ), least f r l ≤ r ∧ (∀ d ∈ l, least f r l ≤ f d) ∧
    (least f r l = r ∨ ∃ d ∈ l, least f r l = f d)
  | [], r => ⟨le_refl r, (fun d h => by cases h), .inl rfl⟩
  | a :: l, r => by
    obtain ⟨h1, h2, h3⟩ := least_spec f l (if f a < r then f a else r)
    rw [least]
    by_cases h : f a < r
    · rw [if_pos h] at h1 h2 h3 ⊢
      refine ⟨by linarith, ?_, .inr ?_⟩
      · intro d hd
        rcases List.mem_cons.mp hd with rfl | hd
        · exact h1
        · exact h2 d hd
      · rcases h3 with h3 | ⟨d, hd, h3⟩
        · exact ⟨a, List.mem_cons_self, h3⟩
        · exact ⟨d, List.mem_cons_of_mem _ hd, h3⟩
    · rw [if_neg h] at h1 h2 h3 ⊢
      refine ⟨h1, ?_, ?_⟩
      · intro d hd
        rcases List.mem_cons.mp hd with rfl | hd
        · exact le_trans h1 (not_lt.mp h)
        · exact h2 d hd
      · rcases h3 with h3 | ⟨d, hd, h3⟩
        · exact .inl h3
        · exact .inr ⟨d, List.mem_cons_of_mem _ hd, h3⟩

/-- The largest value. -/
theorem most_spec (f : δ → ℝ) : ∀ (l : List δ) (r : ℝ), r ≤ most f r l ∧ (∀ d ∈ l, f d ≤ most f r l) ∧
    (most f r l = r ∨ ∃ d ∈ l, most f r l = f d)
  | [], r => ⟨le_refl r, (fun d h => by cases h), .inl rfl⟩
  | a :: l, r => by
    obtain ⟨h1, h2, h3⟩ := most_spec f l (if f a > r then f a else r)
    rw [most]
    by_cases h : f a > r
    · rw [if_pos h] at h1 h2 h3 ⊢
      refine ⟨by linarith, ?_, .inr ?_⟩
      · intro d hd
        rcases List.mem_cons.mp hd with rfl | hd
        · exact h1
        · exact h2 d hd
      · rcases h3 with h3 | ⟨d, hd, h3⟩
        · exact ⟨a, List.mem_cons_self, h3⟩
        · exact ⟨d, List.mem_cons_of_mem _ hd, h3⟩
    · rw [if_neg h] at h1 h2 h3 ⊢
      refine ⟨h1, ?_, ?_⟩
      · intro d hd
        rcases List.mem_cons.mp hd with rfl | hd
        · exact le_trans (not_lt.mp h) h1
        · exact h2 d hd
      · rcases h3 with h3 | ⟨d, hd, h3⟩
        · exact .inl h3
        · exact .inr ⟨d, List.mem_cons_of_mem _ hd, h3⟩

end Verif.MapEdge
