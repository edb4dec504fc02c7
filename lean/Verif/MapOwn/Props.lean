import Verif.MapOwn.Model
import Verif.MapOwn.Spec
import Mathlib.Data.List.Perm.Basic
import Mathlib.Tactic.Common
set_option linter.unusedSimpArgs false
set_option linter.unusedVariables false
/-
C171: every source map has one owner.
-/
namespace Verif.MapOwn
open Verif Spec

theorem find_none {n : String} : ∀ {l : List (String × Option Nat)}, find n l = none → ∀ p ∈ l, p.1 ≠ n
  | [], _ => by simp
  | (k, v) :: l, h => by
    rw [find] at h
    by_cases hk : k = n
    · rw [if_pos hk] at h
      cases h
    · rw [if_neg hk] at h
      intro p hp
      rcases List.mem_cons.1 hp with e | e
      · subst e
        exact hk
      · exact find_none h p e

theorem find_free {n : String} : ∀ {l : List (String × Option Nat)}, (∀ p ∈ l, p.1 ≠ n) → find n l = none
  | [], _ => rfl
  | (k, v) :: l, h => by
    rw [find, if_neg (h (k, v) List.mem_cons_self)]
    exact find_free fun p hp => h p (List.mem_cons_of_mem _ hp)

theorem find_mem {n : String} {v : Option Nat} : ∀ {l : List (String × Option Nat)}, find n l = some v → (n, v) ∈ l
  | [], h => by
    rw [find] at h
    cases h
  | (k, w) :: l, h => by
    rw [find] at h
    by_cases hk : k = n
    · rw [if_pos hk] at h
      cases h
      subst hk
      exact List.mem_cons_self
    · rw [if_neg hk] at h
      exact List.mem_cons_of_mem _ (find_mem h)

theorem mem_find {n : String} {v : Option Nat} : ∀ {l : List (String × Option Nat)}, (l.map Prod.fst).Nodup →
    (n, v) ∈ l → find n l = some v
  | [], _, h => by cases h
  | (k, w) :: l, hn, h => by
    rw [List.map_cons, List.nodup_cons] at hn
    rw [find]
    rcases List.mem_cons.1 h with e | e
    · cases e
      rw [if_pos rfl]
    · rw [if_neg (fun e2 : k = n => hn.1 (List.mem_map.2 ⟨(n, v), e, e2.symm⟩))]
      exact mem_find hn.2 e

theorem drop_sublist (n : String) : ∀ l : List (String × Option Nat), (drop n l).Sublist l
  | [] => List.Sublist.refl _
  | (k, v) :: l => by
    rw [drop]
    by_cases hk : k = n
    · rw [if_pos hk]
      exact List.sublist_cons_self _ _
    · rw [if_neg hk]
      exact (drop_sublist n l).cons_cons _

theorem drop_none {n : String} : ∀ {l : List (String × Option Nat)}, find n l = none → drop n l = l
  | [], _ => rfl
  | (k, v) :: l, h => by
    rw [find] at h
    by_cases hk : k = n
    · rw [if_pos hk] at h
      cases h
    · rw [if_neg hk] at h
      rw [drop, if_neg hk, drop_none h]

theorem drop_free {n : String} : ∀ {l : List (String × Option Nat)}, (l.map Prod.fst).Nodup →
    ∀ p ∈ drop n l, p.1 ≠ n
  | [], _ => by simp [drop]
  | (k, v) :: l, hn => by
    rw [List.map_cons, List.nodup_cons] at hn
    intro p hp
    rw [drop] at hp
    by_cases hk : k = n
    · rw [if_pos hk] at hp
      intro e
      exact hn.1 (List.mem_map.2 ⟨p, hp, by rw [e, hk]⟩)
    · rw [if_neg hk] at hp
      rcases List.mem_cons.1 hp with e | e
      · subst e
        exact hk
      · exact drop_free hn.2 p e

theorem drop_keeps {n : String} : ∀ {l : List (String × Option Nat)} {p : String × Option Nat}, p ∈ l → p.1 ≠ n →
    p ∈ drop n l
  | (k, v) :: l, p, hp, hne => by
    rw [drop]
    by_cases hk : k = n
    · rw [if_pos hk]
      rcases List.mem_cons.1 hp with e | e
      · subst e
        exact absurd hk hne
      · exact e
    · rw [if_neg hk]
      rcases List.mem_cons.1 hp with e | e
      · subst e
        exact List.mem_cons_self
      · exact List.mem_cons_of_mem _ (drop_keeps e hne)

/-- The map of a name and those of the others. -/
theorem drop_perm {n : String} {v : Option Nat} : ∀ {l : List (String × Option Nat)}, find n l = some v →
    (l.filterMap Prod.snd).Perm (v.toList ++ (drop n l).filterMap Prod.snd)
  | [], h => by
    rw [find] at h
    cases h
  | (k, w) :: l, h => by
    rw [find] at h
    rw [drop]
    by_cases hk : k = n
    · rw [if_pos hk] at h
      cases h
      rw [if_pos hk]
      cases v <;> exact List.Perm.refl _
    · rw [if_neg hk] at h
      rw [if_neg hk]
      have ih := drop_perm h
      cases w with
      | none => exact ih
      | some a =>
        show (a :: l.filterMap Prod.snd).Perm (v.toList ++ a :: (drop n l).filterMap Prod.snd)
        exact (List.Perm.cons a ih).trans List.perm_middle.symm

theorem names_drop {n : String} {l : List (String × Option Nat)} (h : (l.map Prod.fst).Nodup) :
    ((drop n l).map Prod.fst).Nodup := h.sublist ((drop_sublist n l).map _)

theorem names_cons {n : String} {v : Option Nat} {l : List (String × Option Nat)} (h : (l.map Prod.fst).Nodup)
    (hf : find n l = none) : (((n, v) :: l).map Prod.fst).Nodup := by
  rw [List.map_cons, List.nodup_cons]
  refine ⟨?_, h⟩
  intro hm
  obtain ⟨p, h1, h2⟩ := List.mem_map.1 hm
  exact find_none hf p h1 h2

theorem get_single {c : Cache} {held : List Nat} (n : String) (b : Bool) (h : Single c held) :
    Single (getMap c n b).2 held := by
  unfold getMap
  cases hf : find n c.maps with
  | some v => exact h
  | none =>
    cases b with
    | true =>
      refine ⟨List.Perm.cons _ h.owners, List.nodup_cons.2 ⟨fun hm => Nat.lt_irrefl _ (h.old _ hm), h.once⟩, ?_,
        names_cons h.names hf⟩
      intro a ha
      rcases List.mem_cons.1 ha with e | e
      · subst e
        exact Nat.lt_succ_self _
      · exact Nat.lt_succ_of_lt (h.old a e)
    | false => exact ⟨h.owners, h.once, h.old, names_cons h.names hf⟩

theorem erase_single {c : Cache} {held : List Nat} (n : String) (h : Single c held) :
    ∃ c', eraseMap c n = .ok c' ∧ Single c' held ∧ c'.maps = drop n c.maps ∧
      ∀ a, Has c n a → a ∉ c'.alive := by
  unfold eraseMap
  cases hf : find n c.maps with
  | none =>
    refine ⟨{ c with maps := drop n c.maps }, rfl, ?_, rfl, ?_⟩
    · rw [drop_none hf]
      exact h
    · intro a ha
      exact absurd rfl (find_none hf _ ha)
  | some v =>
    have hp := drop_perm hf
    cases v with
    | none =>
      refine ⟨{ c with maps := drop n c.maps }, rfl, ⟨?_, h.once, h.old, names_drop h.names⟩, rfl, ?_⟩
      · exact (List.Perm.append_right held hp.symm).trans h.owners
      · intro a ha
        have := mem_find h.names ha
        rw [hf] at this
        cases this
    | some a =>
      have hq : (a :: ((drop n c.maps).filterMap Prod.snd ++ held)).Perm c.alive :=
        (List.Perm.append_right held hp.symm).trans h.owners
      obtain ⟨h1, h2⟩ := List.cons_perm_iff_perm_erase.1 hq
      refine ⟨{ c with maps := drop n c.maps, alive := c.alive.erase a }, ?_, ⟨h2, h.once.erase a, ?_,
        names_drop h.names⟩, rfl, ?_⟩
      · show (del c.alive (some a) >>= _) = _
        rw [del, if_pos h1]
        rfl
      · intro x hx
        exact h.old x (List.mem_of_mem_erase hx)
      · intro x hx
        have := mem_find h.names hx
        rw [hf] at this
        cases this
        exact h.once.not_mem_erase

theorem insert_single {c : Cache} {held : List Nat} {n : String} {a : Nat} (h : Single c held) (ha : a ∈ held)
    (hf : find n c.maps = none) :
    insertMap c n a = .ok { c with maps := (n, some a) :: c.maps } ∧
      Single { c with maps := (n, some a) :: c.maps } (held.erase a) := by
  constructor
  · unfold insertMap
    rw [hf]
  · refine ⟨?_, h.once, h.old, names_cons h.names hf⟩
    show (a :: (owned c ++ held.erase a)).Perm c.alive
    refine List.Perm.trans ?_ h.owners
    exact List.perm_middle.symm.trans (List.Perm.append_left _ (List.perm_cons_erase ha).symm)

theorem recreate_eq {c c' : Cache} {n : String} (h : eraseMap c n = .ok c') :
    recreateMap c n false = .ok (⟨(n, some c.next) :: c'.maps, c.next :: c'.alive, c.next + 1⟩, false) ∧
      recreateMap c n true = .ok ({ c with alive := c'.alive }, true) ∧ c'.next = c.next := by
  unfold eraseMap at h
  unfold recreateMap
  cases hd : del c.alive ((find n c.maps).getD none) with
  | ok al =>
    rw [hd, Res.bind_ok] at h
    injection h with h
    subst h
    exact ⟨rfl, rfl, rfl⟩
  | throws =>
    rw [hd] at h
    cases h
  | ub =>
    rw [hd] at h
    cases h

theorem recreate_single {c : Cache} {held : List Nat} (n : String) (h : Single c held) :
    ∃ c', recreateMap c n false = .ok (c', false) ∧ Single c' held ∧ Has c' n c.next ∧ c.next ∉ c.alive ∧
      (∀ a, Has c n a → a ∉ c'.alive) ∧ ∀ m a, m ≠ n → Has c m a → Has c' m a := by
  obtain ⟨c1, h1, h2, h3, h4⟩ := erase_single n h
  obtain ⟨r1, _, r3⟩ := recreate_eq h1
  have hnew : c.next ∉ c.alive := fun hm => Nat.lt_irrefl _ (h.old _ hm)
  have hold : ∀ a ∈ c1.alive, a < c.next := fun a ha => r3 ▸ h2.old a ha
  have hf : find n c1.maps = none := by
    rw [h3]
    exact find_free (drop_free h.names)
  refine ⟨_, r1, ⟨List.Perm.cons _ h2.owners, List.nodup_cons.2 ⟨fun hm => Nat.lt_irrefl _ (hold _ hm), h2.once⟩, ?_,
    names_cons h2.names hf⟩, List.mem_cons_self, hnew, ?_, ?_⟩
  · intro a ha
    rcases List.mem_cons.1 ha with e | e
    · subst e
      exact Nat.lt_succ_self _
    · exact Nat.lt_succ_of_lt (hold a e)
  · intro a ha hm
    rcases List.mem_cons.1 hm with e | e
    · subst e
      exact hnew (h.owners.subset (List.mem_append_left _ (List.mem_filterMap.2 ⟨_, ha, rfl⟩)))
    · exact h4 a ha e
  · intro m a hm ha
    refine List.mem_cons_of_mem _ ?_
    rw [h3]
    exact drop_keeps ha hm

/-- A map the client holds is not in the cache. -/
theorem held_not_owned {c : Cache} {held : List Nat} {a : Nat} (h : Single c held) (ha : a ∈ held) :
    a ∉ owned c := by
  intro hm
  have hn : (owned c ++ held).Nodup := h.owners.nodup_iff.2 h.once
  exact List.disjoint_of_nodup_append hn hm ha

/-- One step of a client that hands over only maps it holds: no pointer is deleted twice, and every map still has
exactly one owner. -/
theorem C171_step {c : Cache} {held : List Nat} (o : Op) (h : Single c held)
    (ho : ∀ n a, o = .insert n a → a ∈ held) :
    ∃ c' held', step c held o = .ok (c', held') ∧ Single c' held' := by
  cases o with
  | get n b => exact ⟨_, _, rfl, get_single n b h⟩
  | erase n =>
    obtain ⟨c', h1, h2, _⟩ := erase_single n h
    refine ⟨c', held, ?_, h2⟩
    show (eraseMap c n >>= _) = _
    rw [h1]
    rfl
  | insert n a =>
    have ha := ho n a rfl
    cases hf : find n c.maps with
    | none =>
      obtain ⟨h1, h2⟩ := insert_single h ha hf
      refine ⟨_, _, ?_, h2⟩
      rw [step, h1]
    | some v =>
      have hv : v ≠ some a := by
        intro e
        subst e
        exact held_not_owned h ha (List.mem_filterMap.2 ⟨_, find_mem hf, rfl⟩)
      refine ⟨c, held, ?_, h⟩
      have : insertMap c n a = .throws := by
        unfold insertMap
        rw [hf]
        exact if_neg hv
      rw [step, this]
  | remove n =>
    cases hf : find n c.maps with
    | none =>
      refine ⟨c, held, ?_, h⟩
      have : removeMap c n = .throws := by
        unfold removeMap
        rw [hf]
      rw [step, this]
    | some v =>
      have : removeMap c n = .ok (v, { c with maps := drop n c.maps }) := by
        unfold removeMap
        rw [hf]
      refine ⟨{ c with maps := drop n c.maps }, v.toList ++ held, by rw [step, this], ⟨?_, h.once, h.old, names_drop h.names⟩⟩
      refine List.Perm.trans ?_ h.owners
      show ((drop n c.maps).filterMap Prod.snd ++ (v.toList ++ held)).Perm (c.maps.filterMap Prod.snd ++ held)
      rw [← List.append_assoc]
      exact List.Perm.append_right held (List.perm_append_comm.trans (drop_perm hf).symm)

  | recreate n =>
    obtain ⟨c', h1, h2, _⟩ := recreate_single n h
    refine ⟨c', held, ?_, h2⟩
    show (recreateMap c n false >>= _) = _
    rw [h1]
    rfl

theorem destroyAll_ok : ∀ {l : List (String × Option Nat)} {alive held : List Nat},
    (l.filterMap Prod.snd ++ held).Perm alive → ∃ r, destroyAll l alive = .ok r ∧ held.Perm r
  | [], alive, held, h => ⟨alive, rfl, h⟩
  | (k, none) :: l, alive, held, h => by
    obtain ⟨r, h1, h2⟩ := destroyAll_ok (l := l) h
    exact ⟨r, by rw [destroyAll, del, Res.bind_ok, h1], h2⟩
  | (k, some a) :: l, alive, held, h => by
    obtain ⟨g1, g2⟩ := List.cons_perm_iff_perm_erase.1
      (show (a :: (l.filterMap Prod.snd ++ held)).Perm alive from h)
    obtain ⟨r, h1, h2⟩ := destroyAll_ok (l := l) g2
    exact ⟨r, by rw [destroyAll, del, if_pos g1, Res.bind_ok, h1], h2⟩

/-- Histories in which the client hands over only maps it holds at that moment. -/
def Fair : List Op → Cache → List Nat → Prop
  | [], _, _ => True
  | o :: l, c, held => (∀ n a, o = .insert n a → a ∈ held) ∧
    ∀ c' held', step c held o = .ok (c', held') → Fair l c' held'

/-- After any such history the destructor deletes every map of the cache once; what is left is what the client
holds. -/
theorem C171_history : ∀ (l : List Op) {c : Cache} {held : List Nat}, Single c held → Fair l c held →
    ∃ c' held' left, run l c held = .ok (c', held') ∧ Single c' held' ∧ destroy c' = .ok left ∧ held'.Perm left
  | [], c, held, h, _ => by
    obtain ⟨r, h1, h2⟩ := destroyAll_ok h.owners
    exact ⟨c, held, r, rfl, h, h1, h2⟩
  | o :: l, c, held, h, hf => by
    obtain ⟨c1, held1, s1, s2⟩ := C171_step o h hf.1
    obtain ⟨c', held', left, r1, r2, r3, r4⟩ := C171_history l s2 (hf.2 c1 held1 s1)
    refine ⟨c', held', left, ?_, r2, r3, r4⟩
    rw [run, s1, Res.bind_ok]
    exact r1

/-- What the operations do: asking again gives the same map; after erasing, the name is free, the map is deleted
and the other names keep theirs; a removed map is alive and no longer in the cache. -/
theorem C171_effects {c : Cache} {held : List Nat} (n : String) (h : Single c held) :
    (∀ b b' : Bool, (getMap (getMap c n b).2 n b') = ((getMap c n b).1, (getMap c n b).2)) ∧
      (∀ b a, Has c n a → getMap c n b = (some a, c)) ∧
      (Free c n → (getMap c n true).1 = some c.next ∧ c.next ∉ c.alive ∧ Has (getMap c n true).2 n c.next) ∧
      (∃ c', eraseMap c n = .ok c' ∧ Free c' n ∧ (∀ a, Has c n a → a ∉ c'.alive) ∧
        ∀ m a, m ≠ n → Has c m a → Has c' m a) ∧
      (Free c n → removeMap c n = .throws) ∧
      (∀ a, Has c n a → ∃ c', removeMap c n = .ok (some a, c') ∧ a ∈ c'.alive ∧ a ∉ owned c' ∧ Free c' n) := by
  refine ⟨?_, ?_, ?_, ?_, ?_, ?_⟩
  · intro b b'
    unfold getMap
    cases hf : find n c.maps with
    | some v =>
      simp only
      rw [hf]
    | none =>
      cases b <;> simp [find]
  · intro b a ha
    unfold getMap
    rw [mem_find h.names ha]
  · intro hfree
    unfold getMap
    rw [find_free hfree]
    exact ⟨rfl, fun hm => Nat.lt_irrefl _ (h.old _ hm), List.mem_cons_self⟩
  · obtain ⟨c', h1, h2, h3, h4⟩ := erase_single n h
    refine ⟨c', h1, ?_, h4, ?_⟩
    · intro p hp
      rw [h3] at hp
      exact drop_free h.names p hp
    · intro m a hm ha
      show (m, some a) ∈ c'.maps
      rw [h3]
      exact drop_keeps ha hm
  · intro hfree
    unfold removeMap
    rw [find_free hfree]
  · intro a ha
    have hf := mem_find h.names ha
    have hp := drop_perm hf
    refine ⟨{ c with maps := drop n c.maps }, by
      unfold removeMap
      rw [hf], ?_, ?_, drop_free h.names⟩
    · exact h.owners.subset (List.mem_append_left _ (List.mem_filterMap.2 ⟨_, ha, rfl⟩))
    · have hn : (owned c ++ held).Nodup := h.owners.nodup_iff.2 h.once
      have hn2 : (a :: (drop n c.maps).filterMap Prod.snd).Nodup := hp.nodup_iff.1 hn.of_append_left
      exact (List.nodup_cons.1 hn2).1

/-- Adding a source with a map the caller holds: the cache takes it over, the former map of that name is
deleted. -/
theorem C171_add_partial {c : Cache} {held : List Nat} {n : String} {a : Nat} {single fixed : Bool}
    (h : Single c held) (ha : a ∈ held) (hs : single = false ∨ fixed = false) :
    ∃ c', addSource c n single fixed true (some a) = .ok c' ∧ Single c' (held.erase a) ∧ Has c' n a ∧
      ∀ x, Has c n x → x ∉ c'.alive := by
  obtain ⟨c1, h1, h2, h3, h4⟩ := erase_single n h
  have hf : find n c1.maps = none := by
    rw [h3]
    exact find_free (drop_free h.names)
  obtain ⟨g1, g2⟩ := insert_single h2 ha hf
  refine ⟨_, ?_, g2, List.mem_cons_self, h4⟩
  unfold addSource
  have hb : (single && fixed) = false := by
    rcases hs with e | e <;> subst e <;> simp
  rw [hb, if_neg (by decide), if_pos rfl]
  show (eraseMap c n >>= _) = _
  rw [h1, Res.bind_ok]
  exact g1

theorem destroy_dead {k : String} {a : Nat} {l : List (String × Option Nat)} {alive : List Nat} (h : a ∉ alive) :
    destroyAll ((k, some a) :: l) alive = .ub := by
  rw [destroyAll, del, if_neg h]
  rfl

/-- A pointer to a deleted map anywhere in the cache. -/
theorem destroy_dangling {m : String} {a : Nat} : ∀ {l : List (String × Option Nat)} {alive : List Nat},
    (m, some a) ∈ l → a ∉ alive → destroyAll l alive = .ub
  | (k, v) :: l, alive, h1, h2 => by
    rcases List.mem_cons.1 h1 with e | e
    · cases e
      exact destroy_dead h2
    · cases v with
      | none =>
        rw [destroyAll, del, Res.bind_ok]
        exact destroy_dangling e h2
      | some b =>
        by_cases hb : b ∈ alive
        · rw [destroyAll, del, if_pos hb, Res.bind_ok]
          exact destroy_dangling e fun hx => h2 (List.mem_of_mem_erase hx)
        · exact destroy_dead hb

/-- Recreating a map: the old one is deleted, a new one takes its place, the others stay. -/
theorem C171_recreate_partial {c : Cache} {held : List Nat} (n : String) (h : Single c held) :
    ∃ c', recreateMap c n false = .ok (c', false) ∧ Single c' held ∧ Has c' n c.next ∧ c.next ∉ c.alive ∧
      (∀ a, Has c n a → a ∉ c'.alive) ∧ ∀ m a, m ≠ n → Has c m a → Has c' m a :=
  recreate_single n h

/-- When the new map cannot be made, the cache keeps the pointer to the deleted one, and its destructor deletes it
again. -/
theorem C171_recreate_violates {c : Cache} {held : List Nat} {n : String} {a : Nat} (h : Single c held)
    (ha : Has c n a) :
    ∃ c', recreateMap c n true = .ok (c', true) ∧ Has c' n a ∧ a ∉ c'.alive ∧ destroy c' = .ub := by
  obtain ⟨c1, h1, _, _, h4⟩ := erase_single n h
  obtain ⟨_, r2, _⟩ := recreate_eq h1
  exact ⟨_, r2, ha, h4 a ha, destroy_dangling ha (h4 a ha)⟩

/-- Adding a source with the map the cache already has for it: the map is deleted and kept, and the destructor
deletes it again. -/
theorem C171_readd_violates {c : Cache} {held : List Nat} {n : String} {a : Nat} {single fixed : Bool}
    (h : Single c held) (ha : Has c n a) (hs : single = false ∨ fixed = false) :
    ∃ c', addSource c n single fixed true (some a) = .ok c' ∧ Has c' n a ∧ a ∉ c'.alive ∧ destroy c' = .ub := by
  obtain ⟨c1, h1, h2, h3, h4⟩ := erase_single n h
  have hf : find n c1.maps = none := by
    rw [h3]
    exact find_free (drop_free h.names)
  refine ⟨{ c1 with maps := (n, some a) :: c1.maps }, ?_, List.mem_cons_self, h4 a ha, destroy_dead (h4 a ha)⟩
  unfold addSource
  have hb : (single && fixed) = false := by
    rcases hs with e | e <;> subst e <;> simp
  rw [hb, if_neg (by decide), if_pos rfl]
  show (eraseMap c n >>= _) = _
  rw [h1, Res.bind_ok]
  unfold insertMap
  rw [hf]

/-- A map the cache has, handed over again under a second name: the destructor deletes it twice. -/
theorem C171_two_names_violates {c : Cache} {held : List Nat} {m n : String} {a : Nat} (h : Single c held)
    (hm : Has c m a) (hn : Free c n) :
    ∃ c', insertMap c n a = .ok c' ∧ destroy c' = .ub := by
  refine ⟨{ c with maps := (n, some a) :: c.maps }, by
    unfold insertMap
    rw [find_free hn], ?_⟩
  have hal : a ∈ c.alive := h.owners.subset (List.mem_append_left _ (List.mem_filterMap.2 ⟨_, hm, rfl⟩))
  show destroyAll ((n, some a) :: c.maps) c.alive = .ub
  rw [destroyAll, del, if_pos hal, Res.bind_ok]
  exact destroy_dangling hm h.once.not_mem_erase

/-- A fixed source given with a map, when fixed sources share one map: nobody takes the map over, and it is still
alive when the cache is gone. -/
theorem C171_fixed_violates {c : Cache} {held : List Nat} {n : String} {a : Nat} {loadMap : Bool}
    (h : Single c held) (ha : a ∈ held) :
    ∃ c' left, addSource c n true true loadMap (some a) = .ok c' ∧ a ∉ owned c' ∧ destroy c' = .ok left ∧
      a ∈ left := by
  have h2 := get_single n true h
  obtain ⟨r, r1, r2⟩ := destroyAll_ok h2.owners
  exact ⟨_, r, rfl, held_not_owned h2 ha, r1, r2.subset ha⟩

/-- A cache with two maps and a point source without one, and a client with a map. -/
def exCache : Cache := ⟨[("Crab", some 0), ("diffuse", some 1), ("faint", none)], [2, 1, 0], 3⟩

theorem exSingle : Single exCache [2] :=
  ⟨by decide, by decide, by decide, by decide⟩

example : Fair [.get "Vela" true, .insert "new" 2, .remove "Crab", .erase "diffuse"] exCache [2] := by
  refine ⟨fun n a h => (by cases h), fun c held h => ?_⟩
  cases h
  refine ⟨fun n a h => (by cases h; exact List.mem_cons_self), fun c held h => ?_⟩
  refine ⟨fun n a h => (by cases h), fun c held h => ?_⟩
  exact ⟨fun n a h => (by cases h), fun c held h => trivial⟩

example : Has exCache "Crab" 0 ∧ Free exCache "Vela" := by
  constructor
  · exact List.mem_cons_self
  · intro p hp
    simp only [exCache, List.mem_cons, List.mem_nil_iff, or_false] at hp
    rcases hp with e | e | e <;> subst e <;> decide

end Verif.MapOwn
