import Verif.MapOwn.Model2
import Verif.MapOwn.Props
set_option linter.unusedSimpArgs false
set_option linter.unusedVariables false
/-
C171: the cache after computing model counts.
-/
namespace Verif.MapOwn
open Verif Spec

/-- A source whose map the cache has, or computes. -/
def Usable (c : Cache) (p : String × Bool) : Prop := (∃ a, Has c p.1 a) ∨ (Free c p.1 ∧ p.2 = true)

theorem use_has {c : Cache} {held : List Nat} {n : String} {a : Nat} (b keep : Bool) (h : Single c held)
    (ha : Has c n a) : useMap c n b keep = .ok c := by
  unfold useMap getMap
  rw [mem_find h.names ha]
  rfl

theorem use_temp {c : Cache} {n : String} (hf : Free c n) :
    useMap c n true false = .ok { c with next := c.next + 1 } := by
  unfold useMap getMap eraseMap
  rw [find_free hf]
  show (del (c.next :: c.alive) ((find n ((n, some c.next) :: c.maps)).getD none) >>= _) = _
  have h1 : find n ((n, some c.next) :: c.maps) = some (some c.next) := by
    rw [find, if_pos rfl]
  have h2 : drop n ((n, some c.next) :: c.maps) = c.maps := by
    rw [drop, if_pos rfl]
  rw [h1]
  show (del (c.next :: c.alive) (some c.next) >>= _) = _
  rw [del, if_pos List.mem_cons_self, Res.bind_ok, List.erase_cons_head]
  simp only
  rw [h2]

theorem use_kept {c : Cache} {n : String} (hf : Free c n) : useMap c n true true = .ok (getMap c n true).2 := by
  unfold useMap getMap
  rw [find_free hf]
  rfl

theorem single_next {c : Cache} {held : List Nat} (h : Single c held) : Single { c with next := c.next + 1 } held :=
  ⟨h.owners, h.once, fun a ha => Nat.lt_succ_of_lt (h.old a ha), h.names⟩

/-- Computing model counts leaves the cache with the maps it had, and deletes all others that were made. -/
theorem C171_model_counts_partial : ∀ (l : List (String × Bool)) {c : Cache} {held : List Nat}, Single c held →
    (∀ p ∈ l, Usable c p) →
    ∃ c', useMaps false l c = .ok c' ∧ c'.maps = c.maps ∧ c'.alive = c.alive ∧ Single c' held
  | [], c, held, h, _ => ⟨c, rfl, rfl, rfl, h⟩
  | (n, b) :: l, c, held, h, hu => by
    rcases hu (n, b) List.mem_cons_self with ⟨a, ha⟩ | ⟨hf, hb⟩
    · obtain ⟨c', h1, h2⟩ := C171_model_counts_partial l h fun p hp => hu p (List.mem_cons_of_mem _ hp)
      refine ⟨c', ?_, h2⟩
      rw [useMaps, use_has b false h ha, Res.bind_ok, h1]
    · simp only at hb
      subst hb
      obtain ⟨c', h1, h2⟩ := C171_model_counts_partial l (single_next h)
        fun p hp => (hu p (List.mem_cons_of_mem _ hp) : Usable c p)
      refine ⟨c', ?_, h2⟩
      rw [useMaps, use_temp hf, Res.bind_ok, h1]

/-- When the maps are kept, the cache has the maps it had, and one for every source. -/
theorem C171_model_counts_kept_partial : ∀ (l : List (String × Bool)) {c : Cache} {held : List Nat}, Single c held →
    (∀ p ∈ l, Usable c p) →
    ∃ c', useMaps true l c = .ok c' ∧ Single c' held ∧ (∀ m a, Has c m a → Has c' m a) ∧
      ∀ p ∈ l, ∃ a, Has c' p.1 a
  | [], c, held, h, _ => ⟨c, rfl, h, fun _ _ hm => hm, by simp⟩
  | (n, b) :: l, c, held, h, hu => by
    rcases hu (n, b) List.mem_cons_self with ⟨a, ha⟩ | ⟨hf, hb⟩
    · obtain ⟨c', h1, h2, h3, h4⟩ := C171_model_counts_kept_partial l h fun p hp => hu p (List.mem_cons_of_mem _ hp)
      refine ⟨c', ?_, h2, h3, ?_⟩
      · rw [useMaps, use_has b true h ha, Res.bind_ok, h1]
      · intro p hp
        rcases List.mem_cons.1 hp with e | e
        · subst e
          exact ⟨a, h3 _ _ ha⟩
        · exact h4 p e
    · simp only at hb
      subst hb
      have hg : (getMap c n true).2 = ⟨(n, some c.next) :: c.maps, c.next :: c.alive, c.next + 1⟩ := by
        unfold getMap
        rw [find_free hf]
        rfl
      have hu' : ∀ p ∈ l, Usable (getMap c n true).2 p := by
        intro p hp
        rw [hg]
        rcases hu p (List.mem_cons_of_mem _ hp) with ⟨x, hx⟩ | ⟨h1, h2⟩
        · exact Or.inl ⟨x, List.mem_cons_of_mem _ hx⟩
        · by_cases e : p.1 = n
          · left
            refine ⟨c.next, ?_⟩
            rw [e]
            exact List.mem_cons_self
          · right
            refine ⟨?_, h2⟩
            intro q hq
            rcases List.mem_cons.1 hq with e2 | e2
            · subst e2
              exact Ne.symm e
            · exact h1 q e2
      obtain ⟨c', h1, h2, h3, h4⟩ := C171_model_counts_kept_partial l (get_single n true h) hu'
      refine ⟨c', ?_, h2, ?_, ?_⟩
      · rw [useMaps, use_kept hf, Res.bind_ok, h1]
      · intro m a hm
        refine h3 m a ?_
        rw [hg]
        exact List.mem_cons_of_mem _ hm
      · intro p hp
        rcases List.mem_cons.1 hp with e | e
        · subst e
          refine ⟨c.next, h3 _ _ ?_⟩
          rw [hg]
          exact List.mem_cons_self
        · exact h4 p e

/-- A point source without a map, when maps of point sources are not computed: a null pointer is used, at whatever
place in the list the source is. -/
theorem C171_no_point_maps_violates (keep : Bool) (pre post : List (String × Bool)) {c : Cache} {held : List Nat}
    {n : String} (h : Single c held) (hp : ∀ p ∈ pre, ∃ a, Has c p.1 a) (hf : Free c n) :
    useMaps keep (pre ++ (n, false) :: post) c = .ub := by
  induction pre with
  | nil =>
    have : useMap c n false keep = .ub := by
      unfold useMap getMap
      rw [find_free hf]
      rfl
    rw [List.nil_append, useMaps, this]
    rfl
  | cons p pre ih =>
    obtain ⟨m, b⟩ := p
    obtain ⟨a, ha⟩ := hp (m, b) List.mem_cons_self
    rw [List.cons_append, useMaps, use_has b keep h ha, Res.bind_ok]
    exact ih fun q hq => hp q (List.mem_cons_of_mem _ hq)

example : ∀ p ∈ [("Crab", true), ("Vela", true), ("diffuse", false), ("Vela", true)], Usable exCache p := by
  have hv : Free exCache "Vela" := by
    intro p hp
    simp only [exCache, List.mem_cons, List.mem_nil_iff, or_false] at hp
    rcases hp with e | e | e <;> subst e <;> decide
  intro p hp
  simp only [List.mem_cons, List.mem_nil_iff, or_false] at hp
  rcases hp with e | e | e | e <;> subst e
  · exact Or.inl ⟨0, List.mem_cons_self⟩
  · exact Or.inr ⟨hv, rfl⟩
  · exact Or.inl ⟨1, List.mem_cons_of_mem _ List.mem_cons_self⟩
  · exact Or.inr ⟨hv, rfl⟩

end Verif.MapOwn
