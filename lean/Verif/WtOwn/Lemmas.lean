import Verif.WtOwn.Model
import Verif.WtOwn.Spec

set_option linter.unusedSimpArgs false
set_option linter.unusedVariables false
set_option linter.unusedSectionVars false

/-!
# Lemmas about weights maps and their users
-/

namespace Verif.WtOwn

open Verif.StdMap (find put erase Sorted)

variable {F W ν : Type} [LinearOrder F] [DecidableEq ν]

/-- Something holds of a source map and of those of all parts. -/
inductive All (P : ℕ → Prop) : Tree ν → Prop
  | mk (n : ν) (c : Bool) (id : ℕ) (ps : List (Tree ν)) (h : P id) (hp : ∀ t ∈ ps, All P t) :
    All P (.node n c id ps)

theorem All.id {P : ℕ → Prop} {t : Tree ν} (h : All P t) : P t.id := by
  cases h; assumption

theorem All.parts {P : ℕ → Prop} {t : Tree ν} (h : All P t) : ∀ u ∈ t.parts, All P u := by
  cases h; assumption

theorem All.mono {P Q : ℕ → Prop} (hPQ : ∀ i, P i → Q i) {t : Tree ν} (h : All P t) :
    All Q t := by
  induction h with
  | mk n c id ps h hp ih => exact .mk n c id ps (hPQ _ h) ih

theorem look_mem {n : ν} {ts : List (Tree ν)} {t : Tree ν} (h : look n ts = some t) : t ∈ ts :=
  List.mem_of_find?_eq_some h

theorem pick_mem {n : ν} {ts rest : List (Tree ν)} {t : Tree ν} (h : pick n ts = some (t, rest)) :
    t ∈ ts ∧ ∀ u ∈ rest, u ∈ ts := by
  unfold pick at h
  rw [Option.map_eq_some_iff] at h
  obtain ⟨t', h1, h2⟩ := h
  simp only [Prod.mk.injEq] at h2
  obtain ⟨rfl, rfl⟩ := h2
  exact ⟨look_mem h1, fun u hu => List.mem_of_mem_filter hu⟩

theorem pickAll_mem {ns : List ν} : ∀ {ts ps rest : List (Tree ν)},
    pickAll ns ts = some (ps, rest) → (∀ u ∈ ps, u ∈ ts) ∧ ∀ u ∈ rest, u ∈ ts := by
  induction ns with
  | nil =>
    intro ts ps rest h
    simp only [pickAll, Option.some.injEq, Prod.mk.injEq] at h
    obtain ⟨rfl, rfl⟩ := h
    exact ⟨by simp, fun u hu => hu⟩
  | cons n ns ih =>
    intro ts ps rest h
    rw [pickAll] at h
    cases hp : pick n ts with
    | none => rw [hp] at h; cases h
    | some x =>
      obtain ⟨t, r⟩ := x
      rw [hp] at h
      simp only at h
      cases hq : pickAll ns r with
      | none => rw [hq] at h; cases h
      | some y =>
        obtain ⟨ps', rest'⟩ := y
        rw [hq] at h
        simp only [Option.some.injEq, Prod.mk.injEq] at h
        obtain ⟨rfl, rfl⟩ := h
        obtain ⟨h1, h2⟩ := pick_mem hp
        obtain ⟨h3, h4⟩ := ih hq
        refine ⟨?_, fun u hu => h2 u (h4 u hu)⟩
        intro u hu
        rcases List.mem_cons.1 hu with rfl | hu
        · exact h1
        · exact h2 u (h3 u hu)

theorem insert_mem {t : Tree ν} {ts ts' : List (Tree ν)} (h : insert t ts = some ts') :
    ∀ u ∈ ts', u = t ∨ u ∈ ts := by
  unfold insert at h
  split at h
  · cases h
  · cases h
    intro u hu
    rcases List.mem_append.1 hu with hu | hu
    · exact Or.inr hu
    · exact Or.inl (by simpa using hu)

theorem insertAll_mem {ps : List (Tree ν)} : ∀ {ts ts' : List (Tree ν)},
    insertAll ps ts = some ts' → ∀ u ∈ ts', u ∈ ps ∨ u ∈ ts := by
  induction ps with
  | nil =>
    intro ts ts' h u hu
    simp only [insertAll, Option.some.injEq] at h
    subst h
    exact Or.inr hu
  | cons p ps ih =>
    intro ts ts' h u hu
    rw [insertAll] at h
    cases hq : insert p ts with
    | none => rw [hq] at h; cases h
    | some t' =>
      rw [hq] at h
      simp only at h
      rcases ih h u hu with h1 | h1
      · exact Or.inl (List.mem_cons_of_mem _ h1)
      · rcases insert_mem hq u h1 with rfl | h2
        · exact Or.inl (List.mem_cons_self)
        · exact Or.inr h2

theorem mergeT_all {P : ℕ → Prop} {c : ν} {ns : List ν} {id : ℕ} {ts ts' : List (Tree ν)}
    (h : mergeT c ns id ts = some ts') (hid : P id) (hts : ∀ t ∈ ts, All P t) :
    ∀ t ∈ ts', All P t := by
  unfold mergeT at h
  cases hp : pickAll ns ts with
  | none => rw [hp] at h; cases h
  | some x =>
    obtain ⟨ps, rest⟩ := x
    rw [hp] at h
    simp only at h
    obtain ⟨h1, h2⟩ := pickAll_mem hp
    intro t ht
    rcases insert_mem h t ht with rfl | h3
    · exact .mk _ _ _ _ hid (fun u hu => hts u (h1 u hu))
    · exact hts t (h2 t h3)

theorem splitT_all {P : ℕ → Prop} {c : ν} {ts ts' : List (Tree ν)}
    (h : splitT c ts = some ts') (hts : ∀ t ∈ ts, All P t) : ∀ t ∈ ts', All P t := by
  unfold splitT at h
  cases hp : pick c ts with
  | none => rw [hp] at h; cases h
  | some x =>
    obtain ⟨t0, rest⟩ := x
    rw [hp] at h
    simp only at h
    obtain ⟨h1, h2⟩ := pick_mem hp
    split at h
    · intro t ht
      rcases insertAll_mem h t ht with h3 | h3
      · exact (hts t0 h1).parts t h3
      · exact hts t (h2 t h3)
    · cases h

theorem deref_ok {h : List (Option W)} {p : ℕ} {w : W} (e : h[p]? = some (some w)) :
    deref h p = .ok w := by
  unfold deref; rw [e]

theorem free_ok {h : List (Option W)} {p : ℕ} {w : W} (e : h[p]? = some (some w)) :
    free h p = .ok (h.set p none) := by
  unfold free; rw [e]

theorem lt_of_some {α : Type} {l : List α} {k : ℕ} {a : α} (h : l[k]? = some a) : k < l.length := by
  obtain ⟨h', -⟩ := List.getElem?_eq_some_iff.1 h
  exact h'

theorem ex_of_lt {α : Type} {l : List α} {k : ℕ} (h : k < l.length) : ∃ a, l[k]? = some a :=
  ⟨l[k], List.getElem?_eq_getElem h⟩

theorem readWts_some {h : List (Option W)} {q : ℕ} {x : Option W}
    (e : readWts h (some q) = .ok x) : ∃ w, h[q]? = some (some w) ∧ x = some w := by
  simp only [readWts, deref] at e
  cases hq : h[q]? with
  | none => rw [hq] at e; cases e
  | some y =>
    cases y with
    | none => rw [hq] at e; cases e
    | some w => rw [hq] at e; cases e; exact ⟨w, rfl, rfl⟩

theorem readWts_ok {h : List (Option W)} {q : ℕ} {w : W} (e : h[q]? = some (some w)) :
    readWts h (some q) = .ok (some w) := by
  simp only [readWts, deref_ok e]

/-- A likelihood object and what the client expects of it. -/
structure LR (disk : F → W) (s : St F W ν) (i : ℕ) (o : Like ν) (o' : Spec.Like F W ν) :
    Prop where
  srcs : o.srcs = o'.srcs
  cur : (o'.cur = none ∧ o.orig = none) ∨
    ∃ f p, o'.cur = some f ∧ o.orig = some p ∧ find s.lib f = some p ∧ o'.w = some (disk f)
  wt : readWts s.wm o.wt = .ok o'.w
  all : ∀ t ∈ o.srcs, All (fun id => id < s.next ∧ s.smap id = some ⟨i, o.wt, o'.w⟩) t

/-- The program and the expectations of a careful client. -/
structure R (disk : F → W) (s : St F W ν) (v : Spec.St F W ν) : Prop where
  sorted : Sorted s.lib
  live : ∀ f p, find s.lib f = some p → s.pm[p]? = some (some (disk f))
  inj : ∀ f g p, find s.lib f = some p → find s.lib g = some p → f = g
  vlen : s.vars.length = v.vars.length
  vars : ∀ (k : ℕ) (f : F), v.vars[k]? = some (f, true) → ∃ p, s.vars[k]? = some p ∧ find s.lib f = some p
  llen : s.likes.length = v.likes.length
  likes : ∀ (i : ℕ) (o : Like ν), s.likes[i]? = some o → ∃ o', v.likes[i]? = some o' ∧ LR disk s i o o'
  wtinj : ∀ (i j : ℕ) (o o' : Like ν) (q : ℕ), s.likes[i]? = some o → s.likes[j]? = some o' →
    o.wt = some q → o'.wt = some q → i = j
  next : s.next = v.next
  hlen : s.helpers.length = v.helpers.length
  hnone : ∀ k : ℕ, v.helpers[k]? = some (some none) → s.helpers[k]? = some (some none)
  hsome : ∀ (k : ℕ) (f : F), v.helpers[k]? = some (some (some f)) →
    ∃ p, s.helpers[k]? = some (some (some p)) ∧ find s.lib f = some p

theorem R.start (disk : F → W) : R disk (St.empty : St F W ν) Spec.St.empty where
  sorted := StdMap.sorted_nil
  live := by intro f p h; simp [St.empty, find] at h
  inj := by intro f g p h; simp [St.empty, find] at h
  vlen := rfl
  vars := by intro k f h; simp [Spec.St.empty] at h
  llen := rfl
  likes := by intro i o h; simp [St.empty] at h
  wtinj := by intro i j o o' q h; simp [St.empty] at h
  next := rfl
  hlen := rfl
  hnone := by intro k h; simp [Spec.St.empty] at h
  hsome := by intro k f h; simp [Spec.St.empty] at h

/-- The map of that file is needed. -/
def Needs (v : Spec.St F W ν) (f : F) : Prop :=
  (∃ k : ℕ, v.vars[k]? = some (f, true)) ∨ (∃ o ∈ v.likes, o.cur = some f) ∨
    ∃ k : ℕ, v.helpers[k]? = some (some (some f))

/-- Another library, with all that is needed. -/
theorem R.relib {disk : F → W} {s : St F W ν} {v : Spec.St F W ν} (h : R disk s v)
    (pm : List (Option W)) (lib : List (F × ℕ)) (hs : Sorted lib)
    (hl : ∀ f p, find lib f = some p → pm[p]? = some (some (disk f)))
    (hi : ∀ f g p, find lib f = some p → find lib g = some p → f = g)
    (keep : ∀ f p, Needs v f → find s.lib f = some p → find lib f = some p) :
    R disk { s with pm := pm, lib := lib } v where
  sorted := hs
  live := hl
  inj := hi
  vlen := h.vlen
  vars := by
    intro k f hk
    obtain ⟨p, h1, h2⟩ := h.vars k f hk
    exact ⟨p, h1, keep f p (Or.inl ⟨k, hk⟩) h2⟩
  llen := h.llen
  likes := by
    intro i o ho
    obtain ⟨o', h1, h2⟩ := h.likes i o ho
    refine ⟨o', h1, h2.srcs, ?_, h2.wt, h2.all⟩
    rcases h2.cur with hc | ⟨f, p, hc, hp, hf, hw⟩
    · exact Or.inl hc
    · exact Or.inr ⟨f, p, hc, hp,
        keep f p (Or.inr (Or.inl ⟨o', List.mem_of_getElem? h1, hc⟩)) hf, hw⟩
  wtinj := h.wtinj
  next := h.next
  hlen := h.hlen
  hnone := h.hnone
  hsome := by
    intro k f hk
    obtain ⟨p, h1, h2⟩ := h.hsome k f hk
    exact ⟨p, h1, keep f p (Or.inr (Or.inr ⟨k, hk⟩)) h2⟩

/-- An allocator that gives free addresses. -/
def Good (al : List Bool → ℕ) : Prop :=
  ∀ occ : List Bool, al occ ≤ occ.length ∧ occ[al occ]? ≠ some true

theorem R.fetch {disk : F → W} {al : List Bool → ℕ} (hal : Good al) {s : St F W ν}
    {v : Spec.St F W ν} (h : R disk s v) (f : F) :
    R disk (fetch disk al s f).1 v ∧
      find (fetch disk al s f).1.lib f = some (fetch disk al s f).2 ∧
      (fetch disk al s f).1.vars = s.vars ∧ (fetch disk al s f).1.helpers = s.helpers := by
  unfold WtOwn.fetch
  cases hf : find s.lib f with
  | some p => exact ⟨h, hf, rfl, rfl⟩
  | none =>
    obtain ⟨a1, a2⟩ := hal (s.pm.map Option.isSome)
    generalize ha : al (s.pm.map Option.isSome) = a at a1 a2
    rw [List.length_map] at a1
    have fresh : ∀ g p, find s.lib g = some p → p ≠ a := by
      intro g p hg e
      subst e
      apply a2
      rw [List.getElem?_map, h.live g p hg]
      rfl
    have hput : ∀ g, find (put s.lib f a) g = if g = f then some a else find s.lib g := by
      intro g
      rw [StdMap.find_put h.sorted]
    refine ⟨?_, ?_, rfl, rfl⟩
    · apply h.relib
      · exact StdMap.sorted_put h.sorted f a
      · intro g p hg
        rw [hput] at hg
        by_cases e : g = f
        · rw [if_pos e] at hg
          cases hg
          subst e
          rw [List.getElem?_set_self]
          simp; omega
        · rw [if_neg e] at hg
          have hlv := h.live g p hg
          rw [List.getElem?_set_ne (fun x => fresh g p hg x.symm),
            List.getElem?_append_left (lt_of_some hlv)]
          exact hlv
      · intro g g' p hg hg'
        rw [hput] at hg hg'
        by_cases e : g = f <;> by_cases e' : g' = f
        · rw [e, e']
        · rw [if_pos e] at hg; rw [if_neg e'] at hg'
          cases hg
          exact absurd rfl (fresh g' a hg')
        · rw [if_neg e] at hg; rw [if_pos e'] at hg'
          cases hg'
          exact absurd rfl (fresh g a hg)
        · rw [if_neg e] at hg; rw [if_neg e'] at hg'
          exact h.inj g g' p hg hg'
      · intro g p _ hg
        rw [hput, if_neg]
        · exact hg
        · intro e; subst e; rw [hf] at hg; cases hg
    · rw [hput, if_pos rfl]

/-- One more variable. -/
theorem R.push {disk : F → W} {s : St F W ν} {v : Spec.St F W ν} (h : R disk s v) {f : F} {p : ℕ}
    (hf : find s.lib f = some p) :
    R disk { s with vars := s.vars ++ [p] } { v with vars := v.vars ++ [(f, true)] } where
  sorted := h.sorted
  live := h.live
  inj := h.inj
  vlen := by simp [h.vlen]
  vars := by
    intro k g hk
    simp only at hk ⊢
    rcases Nat.lt_trichotomy k v.vars.length with hl | hl | hl
    · rw [List.getElem?_append_left hl] at hk
      obtain ⟨q, h1, h2⟩ := h.vars k g hk
      exact ⟨q, by rw [List.getElem?_append_left (by rw [h.vlen]; exact hl)]; exact h1, h2⟩
    · subst hl
      rw [List.getElem?_append_right (Nat.le_refl _)] at hk
      simp at hk
      subst hk
      refine ⟨p, ?_, hf⟩
      rw [← h.vlen, List.getElem?_append_right (Nat.le_refl _)]
      simp
    · rw [List.getElem?_eq_none (by simp; omega)] at hk
      cases hk
  llen := h.llen
  likes := fun i o ho => by
    obtain ⟨o', h1, h2⟩ := h.likes i o ho
    exact ⟨o', h1, ⟨h2.srcs, h2.cur, h2.wt, h2.all⟩⟩
  wtinj := h.wtinj
  next := h.next
  hlen := h.hlen
  hnone := h.hnone
  hsome := h.hsome

/-- One more object with a map for phases. -/
theorem R.help {disk : F → W} {s : St F W ν} {v : Spec.St F W ν} (h : R disk s v)
    {f : Option F} {p : Option ℕ}
    (hf : (f = none ∧ p = none) ∨ ∃ g q, f = some g ∧ p = some q ∧ find s.lib g = some q) :
    R disk { s with helpers := s.helpers ++ [some p] }
      { v with helpers := v.helpers ++ [some f] } where
  sorted := h.sorted
  live := h.live
  inj := h.inj
  vlen := h.vlen
  vars := h.vars
  llen := h.llen
  likes := fun i o ho => by
    obtain ⟨o', h1, h2⟩ := h.likes i o ho
    exact ⟨o', h1, ⟨h2.srcs, h2.cur, h2.wt, h2.all⟩⟩
  wtinj := h.wtinj
  next := h.next
  hlen := by simp [h.hlen]
  hnone := by
    intro k hk
    simp only at hk ⊢
    rcases Nat.lt_trichotomy k v.helpers.length with hl | hl | hl
    · rw [List.getElem?_append_left hl] at hk
      rw [List.getElem?_append_left (by rw [h.hlen]; exact hl)]
      exact h.hnone k hk
    · subst hl
      rw [List.getElem?_append_right (Nat.le_refl _)] at hk
      simp at hk
      rw [← h.hlen, List.getElem?_append_right (Nat.le_refl _)]
      rcases hf with ⟨-, e⟩ | ⟨g, q, e, -⟩
      · simp [e]
      · rw [e] at hk; cases hk
    · rw [List.getElem?_eq_none (by simp; omega)] at hk
      cases hk
  hsome := by
    intro k g hk
    simp only at hk ⊢
    rcases Nat.lt_trichotomy k v.helpers.length with hl | hl | hl
    · rw [List.getElem?_append_left hl] at hk
      rw [List.getElem?_append_left (by rw [h.hlen]; exact hl)]
      exact h.hsome k g hk
    · subst hl
      rw [List.getElem?_append_right (Nat.le_refl _)] at hk
      simp at hk
      rw [← h.hlen, List.getElem?_append_right (Nat.le_refl _)]
      rcases hf with ⟨e, -⟩ | ⟨g', q, e, e', e2⟩
      · rw [e] at hk; cases hk
      · rw [e] at hk; cases hk
        exact ⟨q, by simp [e'], e2⟩
    · rw [List.getElem?_eq_none (by simp; omega)] at hk
      cases hk

/-- Destroying an object without such a map. -/
theorem R.endHelp {disk : F → W} {s : St F W ν} {v : Spec.St F W ν} (h : R disk s v) (k : ℕ) :
    R disk { s with helpers := s.helpers.set k none } { v with helpers := v.helpers.set k none } where
  sorted := h.sorted
  live := h.live
  inj := h.inj
  vlen := h.vlen
  vars := h.vars
  llen := h.llen
  likes := fun i o ho => by
    obtain ⟨o', h1, h2⟩ := h.likes i o ho
    exact ⟨o', h1, ⟨h2.srcs, h2.cur, h2.wt, h2.all⟩⟩
  wtinj := h.wtinj
  next := h.next
  hlen := by simp [h.hlen]
  hnone := by
    intro j hj
    simp only at hj ⊢
    rw [List.getElem?_set] at hj ⊢
    by_cases e : k = j
    · rw [if_pos e] at hj; split at hj <;> cases hj
    · rw [if_neg e] at hj ⊢; exact h.hnone j hj
  hsome := by
    intro j f hj
    simp only at hj ⊢
    rw [List.getElem?_set] at hj
    by_cases e : k = j
    · rw [if_pos e] at hj; split at hj <;> cases hj
    · rw [if_neg e] at hj
      rw [List.getElem?_set, if_neg e]; exact h.hsome j f hj

end Verif.WtOwn
