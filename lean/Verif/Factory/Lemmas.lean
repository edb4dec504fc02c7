import Mathlib.Data.List.Basic
import Mathlib.Tactic.Common
import Verif.Factory.Spec
import Verif.Factory.Model

set_option linter.unusedSectionVars false
set_option linter.unusedSimpArgs false
set_option linter.unusedVariables false

namespace Verif.Factory

open Verif.StdMap
open Spec (upd addAll Owns Legal Fresh)

variable {N V : Type} [LinearOrder N]

theorem length_put {m : List (N × Nat)} {n : N} {p : Nat} (hs : Sorted m) (h : find m n = none) : (put m n p).length = m.length + 1 := by
  induction m with
  | nil => rfl
  | cons y m ih =>
    obtain ⟨k, a⟩ := y
    rw [sorted_cons] at hs
    simp only [find] at h
    split at h
    · cases h
    · rename_i hk
      simp only [put]
      split
      · rfl
      · rw [if_neg (fun e => hk e.symm), List.length_cons, ih hs.2 h, List.length_cons]

theorem length_erase {m : List (N × Nat)} {n : N} {p : Nat} (h : find m n = some p) : (erase m n).length + 1 = m.length := by
  induction m with
  | nil => cases h
  | cons y m ih =>
    obtain ⟨k, a⟩ := y
    simp only [find] at h
    simp only [erase]
    split at h
    · rename_i hk; rw [if_pos hk, List.length_cons]
    · rename_i hk; rw [if_neg hk, List.length_cons, ih h, List.length_cons]

theorem count_set_none {α : Type} {l : List (Option α)} {i : Nat} {x : α} (h : l[i]? = some (some x)) :
    (l.set i none).countP Option.isSome + 1 = l.countP Option.isSome := by
  induction l generalizing i with
  | nil => simp at h
  | cons a l ih =>
    cases i with
    | zero =>
      simp only [List.getElem?_cons_zero, Option.some.injEq] at h
      subst h
      simp
    | succ i =>
      simp only [List.getElem?_cons_succ] at h
      simp only [List.set_cons_succ, List.countP_cons]
      have := ih h
      omega

theorem count_set_some {α : Type} {l : List (Option α)} {i : Nat} {x y : α} (h : l[i]? = some (some x)) :
    (l.set i (some y)).countP Option.isSome = l.countP Option.isSome := by
  induction l generalizing i with
  | nil => simp at h
  | cons a l ih =>
    cases i with
    | zero =>
      simp only [List.getElem?_cons_zero, Option.some.injEq] at h
      subst h
      simp
    | succ i =>
      simp only [List.getElem?_cons_succ] at h
      simp only [List.set_cons_succ, List.countP_cons, ih h]

theorem deref_ok {h : List (Option (Src N V))} {p : Nat} {x : Src N V} (hx : h[p]? = some (some x)) : deref h p = .ok x := by
  simp only [deref, hx]

theorem free_ok {h : List (Option (Src N V))} {p : Nat} {x : Src N V} (hx : h[p]? = some (some x)) : free h p = .ok (h.set p none) := by
  simp only [free, deref_ok hx, Res.bind_ok]

/-- The memory, the map of the factory and the variables of the client stand for the table and what the client owns. -/
structure Rel (h : List (Option (Src N V))) (m : List (N × Nat)) (vs : List Nat) (P : N → Option (Src N V))
    (W : List (Option (Src N V))) (lost : Nat) : Prop where
  sorted : Sorted m
  absent : ∀ n, find m n = none → P n = none
  val : ∀ n p, find m n = some p → ∃ x, h[p]? = some (some x) ∧ P n = some x
  len : vs.length = W.length
  own : ∀ (i : Nat) (x : Src N V), W[i]? = some (some x) → ∃ p, vs[i]? = some p ∧ h[p]? = some (some x)
  i1 : ∀ n n' p, find m n = some p → find m n' = some p → n = n'
  i2 : ∀ (i j p : Nat) (x y : Src N V), W[i]? = some (some x) → W[j]? = some (some y) → vs[i]? = some p → vs[j]? = some p → i = j
  i3 : ∀ (n : N) (i p : Nat) (x : Src N V), find m n = some p → W[i]? = some (some x) → vs[i]? = some p → False
  count : h.countP Option.isSome = m.length + W.countP Option.isSome + lost

theorem rel_empty : Rel ([] : List (Option (Src N V))) [] [] (fun _ => none) [] 0 :=
  ⟨sorted_nil, (fun _ _ => rfl), (fun n p h => by cases h), rfl, (fun i x h => by simp at h), (fun n n' p h => by cases h),
    (fun i j p x y h => by simp at h), (fun n i p x h => by cases h), rfl⟩

section
variable {h : List (Option (Src N V))} {m : List (N × Nat)} {vs : List Nat} {P : N → Option (Src N V)}
  {W : List (Option (Src N V))} {lost : Nat}

theorem lt_of_live {p : Nat} {x : Src N V} (hx : h[p]? = some (some x)) : p < h.length := by
  by_contra hc
  rw [List.getElem?_eq_none (by omega)] at hx
  cases hx

theorem Rel.find_of_proto (R : Rel h m vs P W lost) {n : N} {x : Src N V} (hp : P n = some x) :
    ∃ p, find m n = some p ∧ h[p]? = some (some x) := by
  cases hf : find m n with
  | none => rw [R.absent n hf] at hp; cases hp
  | some p =>
    obtain ⟨y, h1, h2⟩ := R.val n p hf
    rw [hp] at h2
    cases h2
    exact ⟨p, rfl, h1⟩

theorem Rel.find_none (R : Rel h m vs P W lost) {n : N} (hp : P n = none) : find m n = none := by
  cases hf : find m n with
  | none => rfl
  | some p =>
    obtain ⟨y, h1, h2⟩ := R.val n p hf
    rw [hp] at h2; cases h2

theorem getElem?_snoc {α : Type} {l : List α} {a b : α} {i : Nat} (hh : (l ++ [a])[i]? = some b) :
    (i < l.length ∧ l[i]? = some b) ∨ (i = l.length ∧ b = a) := by
  rcases Nat.lt_trichotomy i l.length with hl | hl | hl
  · rw [List.getElem?_append_left hl] at hh; exact Or.inl ⟨hl, hh⟩
  · subst hl; simp at hh; exact Or.inr ⟨rfl, hh.symm⟩
  · rw [List.getElem?_eq_none (by simp; omega)] at hh; cases hh

theorem live_snoc {p : Nat} {x : Option (Src N V)} {y : Src N V} (hx : h[p]? = some (some y)) : (h ++ [x])[p]? = some (some y) := by
  rw [List.getElem?_append_left (lt_of_live hx)]; exact hx

/-- A new source for the client. -/
theorem Rel.newVar (R : Rel h m vs P W lost) (x : Src N V) :
    Rel (h ++ [some x]) m (vs ++ [h.length]) P (W ++ [some x]) lost := by
  refine ⟨R.sorted, R.absent, fun n p hf => ?_, by simp [R.len], fun i y hw => ?_, R.i1, fun i j p a b ha hb h1 h2 => ?_,
    fun n i p y hf hw hv => ?_, ?_⟩
  · obtain ⟨y, h1, h2⟩ := R.val n p hf
    exact ⟨y, live_snoc h1, h2⟩
  · rcases getElem?_snoc hw with ⟨hi, hw⟩ | ⟨hi, hw⟩
    · obtain ⟨p, h1, h2⟩ := R.own i y hw
      exact ⟨p, by rw [List.getElem?_append_left (by rw [R.len]; exact hi)]; exact h1, live_snoc h2⟩
    · cases hw
      subst hi
      exact ⟨h.length, by rw [← R.len]; simp, by simp⟩
  · rcases getElem?_snoc ha with ⟨hi, ha⟩ | ⟨hi, ha⟩
    · rw [List.getElem?_append_left (by rw [R.len]; exact hi)] at h1
      rcases getElem?_snoc hb with ⟨hj, hb⟩ | ⟨hj, hb⟩
      · rw [List.getElem?_append_left (by rw [R.len]; exact hj)] at h2
        exact R.i2 i j p a b ha hb h1 h2
      · subst hj
        rw [← R.len] at h2
        simp at h2
        obtain ⟨q, k1, k2⟩ := R.own i a ha
        rw [h1] at k1; cases k1
        exact absurd (lt_of_live k2) (by omega)
    · subst hi
      rw [← R.len] at h1
      simp at h1
      rcases getElem?_snoc hb with ⟨hj, hb⟩ | ⟨hj, hb⟩
      · rw [List.getElem?_append_left (by rw [R.len]; exact hj)] at h2
        obtain ⟨q, k1, k2⟩ := R.own j b hb
        rw [h2] at k1; cases k1
        exact absurd (lt_of_live k2) (by omega)
      · exact hj.symm
  · rcases getElem?_snoc hw with ⟨hi, hw⟩ | ⟨hi, hw⟩
    · rw [List.getElem?_append_left (by rw [R.len]; exact hi)] at hv
      exact R.i3 n i p y hf hw hv
    · subst hi
      rw [← R.len] at hv
      simp at hv
      obtain ⟨z, k1, k2⟩ := R.val n p hf
      exact absurd (lt_of_live k1) (by omega)
  · rw [List.countP_append, List.countP_append, R.count]
    simp
    omega

/-- A new prototype. -/
theorem Rel.newProto (R : Rel h m vs P W lost) {n : N} (hn : find m n = none) (x : Src N V) :
    Rel (h ++ [some x]) (put m n h.length) vs (upd P n (some x)) W lost := by
  refine ⟨sorted_put R.sorted _ _, fun k hf => ?_, fun k p hf => ?_, R.len, fun i y hw => ?_, fun k k' p h1 h2 => ?_, R.i2,
    fun k i p y hf hw hv => ?_, ?_⟩
  · rw [find_put R.sorted] at hf
    unfold upd
    split at hf
    · cases hf
    · rename_i hk; rw [if_neg hk]; exact R.absent k hf
  · rw [find_put R.sorted] at hf
    unfold upd
    split at hf
    · rename_i hk
      cases hf
      exact ⟨x, by simp, if_pos hk⟩
    · rename_i hk
      obtain ⟨y, h1, h2⟩ := R.val k p hf
      exact ⟨y, live_snoc h1, by rw [if_neg hk]; exact h2⟩
  · obtain ⟨p, h1, h2⟩ := R.own i y hw
    exact ⟨p, h1, live_snoc h2⟩
  · rw [find_put R.sorted] at h1 h2
    split at h1
    · cases h1
      split at h2
      · rename_i e1 e2; rw [e1, e2]
      · obtain ⟨z, k1, k2⟩ := R.val k' _ h2
        exact absurd (lt_of_live k1) (by omega)
    · split at h2
      · cases h2
        obtain ⟨z, k1, k2⟩ := R.val k _ h1
        exact absurd (lt_of_live k1) (by omega)
      · exact R.i1 k k' p h1 h2
  · rw [find_put R.sorted] at hf
    split at hf
    · cases hf
      obtain ⟨q, k1, k2⟩ := R.own i y hw
      rw [hv] at k1; cases k1
      exact absurd (lt_of_live k2) (by omega)
    · exact R.i3 k i p y hf hw hv
  · rw [List.countP_append, R.count, length_put R.sorted hn]
    simp
    omega

/-- A prototype is given to the client. -/
theorem Rel.giveVar (R : Rel h m vs P W lost) {n : N} {p : Nat} {x : Src N V} (hn : find m n = some p) (hx : P n = some x) :
    Rel h (erase m n) (vs ++ [p]) (upd P n none) (W ++ [some x]) lost := by
  have hlive : h[p]? = some (some x) := by
    obtain ⟨y, h1, h2⟩ := R.val n p hn
    rw [hx] at h2; cases h2; exact h1
  refine ⟨sorted_erase R.sorted _, fun k hf => ?_, fun k q hf => ?_, by simp [R.len], fun i y hw => ?_, fun k k' q h1 h2 => ?_,
    fun i j q a b ha hb h1 h2 => ?_, fun k i q y hf hw hv => ?_, ?_⟩
  · rw [find_erase R.sorted] at hf
    unfold upd
    split at hf
    · rename_i hk; rw [if_pos hk]
    · rename_i hk; rw [if_neg hk]; exact R.absent k hf
  · rw [find_erase R.sorted] at hf
    unfold upd
    split at hf
    · cases hf
    · rename_i hk
      obtain ⟨y, h1, h2⟩ := R.val k q hf
      exact ⟨y, h1, by rw [if_neg hk]; exact h2⟩
  · rcases getElem?_snoc hw with ⟨hi, hw⟩ | ⟨hi, hw⟩
    · obtain ⟨q, h1, h2⟩ := R.own i y hw
      exact ⟨q, by rw [List.getElem?_append_left (by rw [R.len]; exact hi)]; exact h1, h2⟩
    · cases hw
      subst hi
      exact ⟨p, by rw [← R.len]; simp, hlive⟩
  · rw [find_erase R.sorted] at h1 h2
    split at h1
    · cases h1
    · split at h2
      · cases h2
      · exact R.i1 k k' q h1 h2
  · rcases getElem?_snoc ha with ⟨hi, ha⟩ | ⟨hi, ha⟩
    · rw [List.getElem?_append_left (by rw [R.len]; exact hi)] at h1
      rcases getElem?_snoc hb with ⟨hj, hb⟩ | ⟨hj, hb⟩
      · rw [List.getElem?_append_left (by rw [R.len]; exact hj)] at h2
        exact R.i2 i j q a b ha hb h1 h2
      · subst hj
        rw [← R.len] at h2
        simp at h2
        subst h2
        exact (R.i3 n i p a hn ha h1).elim
    · subst hi
      rw [← R.len] at h1
      simp at h1
      subst h1
      rcases getElem?_snoc hb with ⟨hj, hb⟩ | ⟨hj, hb⟩
      · rw [List.getElem?_append_left (by rw [R.len]; exact hj)] at h2
        exact (R.i3 n j p b hn hb h2).elim
      · exact hj.symm
  · rw [find_erase R.sorted] at hf
    split at hf
    · cases hf
    · rename_i hk
      rcases getElem?_snoc hw with ⟨hi, hw⟩ | ⟨hi, hw⟩
      · rw [List.getElem?_append_left (by rw [R.len]; exact hi)] at hv
        exact R.i3 k i q y hf hw hv
      · subst hi
        rw [← R.len] at hv
        simp at hv
        subst hv
        exact hk (R.i1 k n p hf hn)
  · have := length_erase hn
    rw [List.countP_append, R.count]
    simp
    omega

theorem getElem?_set_none {i j : Nat} {x : Src N V} (hh : (W.set i none)[j]? = some (some x)) : j ≠ i ∧ W[j]? = some (some x) := by
  rw [List.getElem?_set] at hh
  split at hh
  · split at hh <;> cases hh
  · rename_i hij; exact ⟨fun e => hij e.symm, hh⟩

/-- A source of the client becomes a prototype. -/
theorem Rel.takeVar (R : Rel h m vs P W lost) {n : N} (hn : find m n = none) {i p : Nat} {x : Src N V} (hw : W[i]? = some (some x))
    (hv : vs[i]? = some p) : Rel h (put m n p) vs (upd P n (some x)) (W.set i none) lost := by
  have hlive : h[p]? = some (some x) := by
    obtain ⟨q, h1, h2⟩ := R.own i x hw
    rw [hv] at h1; cases h1; exact h2
  refine ⟨sorted_put R.sorted _ _, fun k hf => ?_, fun k q hf => ?_, by simp [R.len], fun j y hy => ?_, fun k k' q h1 h2 => ?_,
    fun a b q y z ha hb h1 h2 => ?_, fun k j q y hf hy hq => ?_, ?_⟩
  · rw [find_put R.sorted] at hf
    unfold upd
    split at hf
    · cases hf
    · rename_i hk; rw [if_neg hk]; exact R.absent k hf
  · rw [find_put R.sorted] at hf
    unfold upd
    split at hf
    · rename_i hk
      cases hf
      exact ⟨x, hlive, if_pos hk⟩
    · rename_i hk
      obtain ⟨y, h1, h2⟩ := R.val k q hf
      exact ⟨y, h1, by rw [if_neg hk]; exact h2⟩
  · exact R.own j y (getElem?_set_none hy).2
  · rw [find_put R.sorted] at h1 h2
    split at h1
    · cases h1
      split at h2
      · rename_i e1 e2; rw [e1, e2]
      · exact (R.i3 k' i p x h2 hw hv).elim
    · split at h2
      · cases h2
        exact (R.i3 k i p x h1 hw hv).elim
      · exact R.i1 k k' q h1 h2
  · exact R.i2 a b q y z (getElem?_set_none ha).2 (getElem?_set_none hb).2 h1 h2
  · obtain ⟨hj, hy⟩ := getElem?_set_none hy
    rw [find_put R.sorted] at hf
    split at hf
    · cases hf
      exact hj (R.i2 j i p y x hy hw hq hv)
    · exact R.i3 k j q y hf hy hq
  · have := count_set_none hw
    rw [R.count, length_put R.sorted hn]
    omega

theorem live_set {p q : Nat} {x : Option (Src N V)} {y : Src N V} (hpq : q ≠ p) (hq : h[q]? = some (some y)) :
    (h.set p x)[q]? = some (some y) := by
  rw [List.getElem?_set_ne (fun e => hpq e.symm)]; exact hq

/-- A prototype is deleted. -/
theorem Rel.freeProto (R : Rel h m vs P W lost) {n : N} {p : Nat} (hn : find m n = some p) :
    Rel (h.set p none) (erase m n) vs (upd P n none) W lost := by
  obtain ⟨x, hlive, hP⟩ := R.val n p hn
  refine ⟨sorted_erase R.sorted _, fun k hf => ?_, fun k q hf => ?_, R.len, fun i y hw => ?_, fun k k' q h1 h2 => ?_, R.i2,
    fun k i q y hf hw hv => ?_, ?_⟩
  · rw [find_erase R.sorted] at hf
    unfold upd
    split at hf
    · rename_i hk; rw [if_pos hk]
    · rename_i hk; rw [if_neg hk]; exact R.absent k hf
  · rw [find_erase R.sorted] at hf
    unfold upd
    split at hf
    · cases hf
    · rename_i hk
      obtain ⟨y, h1, h2⟩ := R.val k q hf
      exact ⟨y, live_set (fun e => hk (R.i1 k n p (e ▸ hf) hn)) h1, by rw [if_neg hk]; exact h2⟩
  · obtain ⟨q, h1, h2⟩ := R.own i y hw
    exact ⟨q, h1, live_set (fun e => R.i3 n i p y hn hw (e ▸ h1)) h2⟩
  · rw [find_erase R.sorted] at h1 h2
    split at h1
    · cases h1
    · split at h2
      · cases h2
      · exact R.i1 k k' q h1 h2
  · rw [find_erase R.sorted] at hf
    split at hf
    · cases hf
    · exact R.i3 k i q y hf hw hv
  · have := length_erase hn
    have := count_set_none hlive
    have := R.count
    omega

/-- A source of the client is deleted. -/
theorem Rel.freeVar (R : Rel h m vs P W lost) {i p : Nat} {x : Src N V} (hw : W[i]? = some (some x)) (hv : vs[i]? = some p) :
    Rel (h.set p none) m vs P (W.set i none) lost := by
  have hlive : h[p]? = some (some x) := by
    obtain ⟨q, h1, h2⟩ := R.own i x hw
    rw [hv] at h1; cases h1; exact h2
  refine ⟨R.sorted, R.absent, fun k q hf => ?_, by simp [R.len], fun j y hy => ?_, R.i1,
    fun a b q y z ha hb h1 h2 => R.i2 a b q y z (getElem?_set_none ha).2 (getElem?_set_none hb).2 h1 h2,
    fun k j q y hf hy hq => R.i3 k j q y hf (getElem?_set_none hy).2 hq, ?_⟩
  · obtain ⟨y, h1, h2⟩ := R.val k q hf
    exact ⟨y, live_set (fun e => R.i3 k i p x (e ▸ hf) hw hv) h1, h2⟩
  · obtain ⟨hj, hy⟩ := getElem?_set_none hy
    obtain ⟨q, h1, h2⟩ := R.own j y hy
    exact ⟨q, h1, live_set (fun e => hj (R.i2 j i p y x hy hw (e ▸ h1) hv)) h2⟩
  · have := count_set_none hlive
    have := count_set_none hw
    have := R.count
    omega

/-- A source of the client is changed. -/
theorem Rel.editVar (R : Rel h m vs P W lost) {i p : Nat} {x : Src N V} (hw : W[i]? = some (some x)) (hv : vs[i]? = some p)
    (t : Src N V) : Rel (h.set p (some t)) m vs P (W.set i (some t)) lost := by
  have hlive : h[p]? = some (some x) := by
    obtain ⟨q, h1, h2⟩ := R.own i x hw
    rw [hv] at h1; cases h1; exact h2
  have hset : ∀ {j : Nat} {y : Src N V}, (W.set i (some t))[j]? = some (some y) → (j = i ∧ y = t) ∨ (j ≠ i ∧ W[j]? = some (some y)) := by
    intro j y hh
    rw [List.getElem?_set] at hh
    split at hh
    · rename_i e
      split at hh
      · cases hh; exact Or.inl ⟨e.symm, rfl⟩
      · cases hh
    · rename_i hij; exact Or.inr ⟨fun e => hij e.symm, hh⟩
  have hold : ∀ {j : Nat} {y : Src N V}, (W.set i (some t))[j]? = some (some y) → ∃ z, W[j]? = some (some z) := by
    intro j y hh
    rcases hset hh with ⟨e, -⟩ | ⟨-, e⟩
    · subst e; exact ⟨x, hw⟩
    · exact ⟨y, e⟩
  refine ⟨R.sorted, R.absent, fun k q hf => ?_, by simp [R.len], fun j y hy => ?_, R.i1, fun a b q y z ha hb h1 h2 => ?_,
    fun k j q y hf hy hq => ?_, ?_⟩
  · obtain ⟨y, h1, h2⟩ := R.val k q hf
    exact ⟨y, live_set (fun e => R.i3 k i p x (e ▸ hf) hw hv) h1, h2⟩
  · rcases hset hy with ⟨e, e'⟩ | ⟨hj, hy⟩
    · subst e; subst e'
      exact ⟨p, hv, by rw [List.getElem?_set_self (lt_of_live hlive)]⟩
    · obtain ⟨q, h1, h2⟩ := R.own j y hy
      exact ⟨q, h1, live_set (fun e => hj (R.i2 j i p y x hy hw (e ▸ h1) hv)) h2⟩
  · obtain ⟨y', ha⟩ := hold ha
    obtain ⟨z', hb⟩ := hold hb
    exact R.i2 a b q y' z' ha hb h1 h2
  · obtain ⟨y', hy⟩ := hold hy
    exact R.i3 k j q y' hf hy hq
  · rw [count_set_some hlive, count_set_some hw, R.count]

/-- The last variables are forgotten: what they own is lost. -/
theorem Rel.strip {vs' : List Nat} {W' : List (Option (Src N V))} (R : Rel h m (vs ++ vs') P (W ++ W') lost) (hl : vs.length = W.length) :
    Rel h m vs P W (lost + W'.countP Option.isSome) := by
  have hlt : ∀ {i : Nat} {x : Option (Src N V)}, W[i]? = some x → i < W.length := by
    intro i x hh
    by_contra hc
    rw [List.getElem?_eq_none (by omega)] at hh
    cases hh
  have hW : ∀ {i : Nat} {x : Option (Src N V)}, W[i]? = some x → (W ++ W')[i]? = some x := fun hh => by
    rw [List.getElem?_append_left (hlt hh)]; exact hh
  have hV : ∀ {i : Nat}, i < W.length → (vs ++ vs')[i]? = vs[i]? := fun hh => by
    rw [List.getElem?_append_left (by rw [hl]; exact hh)]
  refine ⟨R.sorted, R.absent, R.val, hl, fun i x hw => ?_, R.i1, fun i j p x y ha hb h1 h2 => ?_, fun k i p x hf hw hv => ?_, ?_⟩
  · obtain ⟨p, h1, h2⟩ := R.own i x (hW hw)
    rw [hV (hlt hw)] at h1
    exact ⟨p, h1, h2⟩
  · exact R.i2 i j p x y (hW ha) (hW hb) (by rw [hV (hlt ha)]; exact h1) (by rw [hV (hlt hb)]; exact h2)
  · exact R.i3 k i p x hf (hW hw) (by rw [hV (hlt hw)]; exact hv)
  · rw [R.count, List.countP_append]
    omega

end
end Verif.Factory
