import Mathlib.Data.List.Basic
import Mathlib.Data.List.Pairwise
import Mathlib.Data.List.Perm.Basic
import Mathlib.Order.Basic
/-
`std::map`: association lists sorted by strictly increasing key.
-/
namespace Verif.StdMap

variable {κ : Type} [LinearOrder κ] {α : Type}

/-- `find(k)`. -/
def find : List (κ × α) → κ → Option α
  | [], _ => none
  | (k', a) :: m, k => if k' = k then some a else find m k

/-- `m[k] = a`. -/
def put : List (κ × α) → κ → α → List (κ × α)
  | [], k, a => [(k, a)]
  | (k', a') :: m, k, a =>
    if k < k' then (k, a) :: (k', a') :: m
    else if k = k' then (k, a) :: m
    else (k', a') :: put m k a

/-- `erase(k)`. -/
def erase : List (κ × α) → κ → List (κ × α)
  | [], _ => []
  | (k', a') :: m, k => if k' = k then m else (k', a') :: erase m k

/-- The keys in order. -/
def keys (m : List (κ × α)) : List κ := m.map Prod.fst

/-- Keys strictly increasing. -/
def Sorted (m : List (κ × α)) : Prop := (keys m).Pairwise (· < ·)

theorem sorted_nil : Sorted ([] : List (κ × α)) := List.Pairwise.nil

theorem sorted_cons {k : κ} {a : α} {m : List (κ × α)} :
    Sorted ((k, a) :: m) ↔ (∀ k' ∈ keys m, k < k') ∧ Sorted m := by
  simp only [Sorted, keys, List.map_cons, List.pairwise_cons]

theorem find_none {m : List (κ × α)} {k : κ} : find m k = none ↔ k ∉ keys m := by
  induction m with
  | nil => simp [find, keys]
  | cons x m ih =>
    obtain ⟨k', a⟩ := x
    simp only [find, keys, List.map_cons, List.mem_cons, not_or] at ih ⊢
    by_cases h : k' = k
    · simp [h]
    · rw [if_neg h]
      exact ⟨fun hh => ⟨fun e => h e.symm, ih.1 hh⟩, fun hh => ih.2 hh.2⟩

theorem find_some_mem {m : List (κ × α)} {k : κ} {a : α} (h : find m k = some a) : (k, a) ∈ m := by
  induction m with
  | nil => simp [find] at h
  | cons x m ih =>
    obtain ⟨k', a'⟩ := x
    simp only [find] at h
    by_cases hk : k' = k
    · rw [if_pos hk] at h; cases h; simp [hk]
    · rw [if_neg hk] at h; exact List.mem_cons_of_mem _ (ih h)

theorem mem_keys_of_find {m : List (κ × α)} {k : κ} {a : α} (h : find m k = some a) : k ∈ keys m :=
  List.mem_map.2 ⟨_, find_some_mem h, rfl⟩

theorem mem_keys_iff {m : List (κ × α)} {k : κ} : k ∈ keys m ↔ ∃ a, find m k = some a := by
  constructor
  · intro h
    cases hf : find m k with
    | none => exact absurd h (find_none.1 hf)
    | some a => exact ⟨a, rfl⟩
  · rintro ⟨a, h⟩; exact mem_keys_of_find h

theorem find_of_mem {m : List (κ × α)} (hs : Sorted m) {k : κ} {a : α} (h : (k, a) ∈ m) :
    find m k = some a := by
  induction m with
  | nil => simp at h
  | cons x m ih =>
    obtain ⟨k', a'⟩ := x
    rw [sorted_cons] at hs
    rcases List.mem_cons.1 h with h | h
    · cases h; simp [find]
    · have hk : k' ≠ k := (hs.1 k (List.mem_map.2 ⟨_, h, rfl⟩)).ne
      simp only [find, if_neg hk]
      exact ih hs.2 h

theorem nodup_keys {m : List (κ × α)} (hs : Sorted m) : (keys m).Nodup :=
  hs.imp (fun h => h.ne)

theorem keys_put {m : List (κ × α)} {k : κ} {a : α} {x : κ} :
    x ∈ keys (put m k a) ↔ x = k ∨ x ∈ keys m := by
  induction m with
  | nil => simp [put, keys]
  | cons y m ih =>
    obtain ⟨k', a'⟩ := y
    simp only [put]
    split
    · simp [keys]
    · split
      · rename_i h; simp [keys, h]
      · simp only [keys, List.map_cons, List.mem_cons] at ih ⊢
        rw [ih]; tauto

theorem sorted_put {m : List (κ × α)} (hs : Sorted m) (k : κ) (a : α) : Sorted (put m k a) := by
  induction m with
  | nil => simp [put, Sorted, keys]
  | cons y m ih =>
    obtain ⟨k', a'⟩ := y
    rw [sorted_cons] at hs
    simp only [put]
    split
    · rename_i h
      rw [sorted_cons, sorted_cons]
      refine ⟨?_, hs⟩
      intro x hx
      simp only [keys, List.map_cons, List.mem_cons] at hx
      rcases hx with rfl | hx
      · exact h
      · exact lt_trans h (hs.1 x hx)
    · split
      · rename_i h h'
        subst h'
        rw [sorted_cons]; exact hs
      · rename_i h h'
        rw [sorted_cons]
        refine ⟨?_, ih hs.2⟩
        intro x hx
        rcases keys_put.1 hx with rfl | hx
        · exact lt_of_le_of_ne (not_lt.1 h) (Ne.symm h')
        · exact hs.1 x hx

theorem find_put {m : List (κ × α)} (hs : Sorted m) {k : κ} {a : α} {x : κ} :
    find (put m k a) x = if x = k then some a else find m x := by
  induction m with
  | nil =>
    simp only [put, find]
    by_cases h : x = k
    · simp [h]
    · rw [if_neg h, if_neg (fun e => h e.symm)]
  | cons y m ih =>
    obtain ⟨k', a'⟩ := y
    rw [sorted_cons] at hs
    simp only [put]
    split
    · simp only [find]
      by_cases h : x = k
      · simp [h]
      · rw [if_neg h, if_neg (fun e => h e.symm)]
    · split
      · rename_i h h'
        subst h'
        simp only [find]
        by_cases hx : x = k
        · simp [hx]
        · rw [if_neg hx, if_neg (fun e => hx e.symm), if_neg (fun e => hx e.symm)]
      · rename_i h h'
        simp only [find, ih hs.2]
        by_cases hx : x = k
        · subst hx
          rw [if_pos rfl, if_pos rfl, if_neg (fun e => h' e.symm)]
        · rw [if_neg hx, if_neg hx]

theorem mem_keys_erase {m : List (κ × α)} (hs : Sorted m) {k x : κ} :
    x ∈ keys (erase m k) ↔ x ≠ k ∧ x ∈ keys m := by
  induction m with
  | nil => simp [erase, keys]
  | cons y m ih =>
    obtain ⟨k', a'⟩ := y
    rw [sorted_cons] at hs
    simp only [erase]
    split
    · rename_i h
      subst h
      simp only [keys, List.map_cons, List.mem_cons]
      constructor
      · intro hx; exact ⟨(hs.1 x hx).ne', Or.inr hx⟩
      · rintro ⟨h1, h2 | h2⟩
        · exact absurd h2 h1
        · exact h2
    · rename_i h
      have := ih hs.2
      simp only [keys, List.map_cons, List.mem_cons] at this ⊢
      rw [this]
      constructor
      · rintro (rfl | ⟨h1, h2⟩)
        · exact ⟨h, Or.inl rfl⟩
        · exact ⟨h1, Or.inr h2⟩
      · rintro ⟨h1, h2 | h2⟩
        · exact Or.inl h2
        · exact Or.inr ⟨h1, h2⟩

theorem sorted_erase {m : List (κ × α)} (hs : Sorted m) (k : κ) : Sorted (erase m k) := by
  induction m with
  | nil => exact hs
  | cons y m ih =>
    obtain ⟨k', a'⟩ := y
    rw [sorted_cons] at hs
    simp only [erase]
    split
    · exact hs.2
    · rw [sorted_cons]
      exact ⟨fun x hx => hs.1 x ((mem_keys_erase hs.2).1 hx).2, ih hs.2⟩

theorem find_erase {m : List (κ × α)} (hs : Sorted m) {k x : κ} :
    find (erase m k) x = if x = k then none else find m x := by
  induction m with
  | nil => simp [erase, find]
  | cons y m ih =>
    obtain ⟨k', a'⟩ := y
    rw [sorted_cons] at hs
    simp only [erase]
    split
    · rename_i h
      subst h
      by_cases hx : x = k'
      · subst hx
        rw [if_pos rfl, find_none]
        intro hm; exact absurd (hs.1 x hm) (lt_irrefl _)
      · simp only [find]
        rw [if_neg hx, if_neg (fun e => hx e.symm)]
    · rename_i h
      simp only [find, ih hs.2]
      by_cases hx : x = k
      · subst hx
        rw [if_pos rfl, if_pos rfl, if_neg h]
      · rw [if_neg hx, if_neg hx]

/-- Two maps with the same contents are equal. -/
theorem ext {m m' : List (κ × α)} (h : Sorted m) (h' : Sorted m')
    (he : ∀ k, find m k = find m' k) : m = m' := by
  induction m generalizing m' with
  | nil =>
    cases m' with
    | nil => rfl
    | cons y m' =>
      obtain ⟨k, a⟩ := y
      have := he k
      simp [find] at this
  | cons x m ih =>
    obtain ⟨k, a⟩ := x
    cases m' with
    | nil => have := he k; simp [find] at this
    | cons y m' =>
      obtain ⟨k', a'⟩ := y
      rw [sorted_cons] at h h'
      have hk : k = k' := by
        rcases lt_trichotomy k k' with hlt | heq | hlt
        · have h1 := he k
          simp only [find, if_true, if_neg hlt.ne'] at h1
          have := h'.1 k (mem_keys_of_find h1.symm)
          exact absurd this (not_lt.2 hlt.le)
        · exact heq
        · have h1 := he k'
          simp only [find, if_true, if_neg hlt.ne'] at h1
          have := h.1 k' (mem_keys_of_find h1)
          exact absurd this (not_lt.2 hlt.le)
      subst hk
      have ha := he k
      simp only [find, if_true, Option.some.injEq] at ha
      subst ha
      congr 1
      apply ih h.2 h'.2
      intro x
      have := he x
      simp only [find] at this
      by_cases hx : k = x
      · subst hx
        rw [find_none.2 (fun hm => lt_irrefl _ (h.1 _ hm)),
          find_none.2 (fun hm => lt_irrefl _ (h'.1 _ hm))]
      · rwa [if_neg hx, if_neg hx] at this

theorem put_put {m : List (κ × α)} (h : Sorted m) (k : κ) (a b : α) :
    put (put m k a) k b = put m k b := by
  apply ext (sorted_put (sorted_put h _ _) _ _) (sorted_put h _ _)
  intro x
  rw [find_put (sorted_put h _ _), find_put h, find_put h]
  by_cases hx : x = k
  · simp [hx]
  · simp [hx]

theorem put_self {m : List (κ × α)} (h : Sorted m) {k : κ} {a : α} (hk : find m k = some a) :
    put m k a = m := by
  apply ext (sorted_put h _ _) h
  intro x
  rw [find_put h]
  by_cases hx : x = k
  · rw [if_pos hx, hx, hk]
  · rw [if_neg hx]

theorem erase_put {m : List (κ × α)} (h : Sorted m) {k : κ} (a : α) (hk : find m k = none) :
    erase (put m k a) k = m := by
  apply ext (sorted_erase (sorted_put h _ _) _) h
  intro x
  rw [find_erase (sorted_put h _ _), find_put h]
  by_cases hx : x = k
  · rw [if_pos hx, hx, hk]
  · rw [if_neg hx, if_neg hx]

end Verif.StdMap
