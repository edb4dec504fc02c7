import Verif.Ties.Lemmas
import Mathlib.Tactic.NormNum
/-
Property C137: tied parameters stay together.
-/
set_option linter.unusedSectionVars false
set_option linter.unusedVariables false
set_option linter.unusedSimpArgs false
namespace Verif.Ties
open Spec

/-- What may be done: the tie exists, a setter is a function of the library, and a new member
exists and is not tied otherwise. -/
def Valid (w : World) : Op → Prop
  | .set k f => k < w.ties.length ∧ ∀ p, f p ≠ .ub
  | .add k i j => k < w.ties.length ∧ (look w.comps (i, j)).isSome ∧
      ∀ (l : Nat) (u : Tie), l ≠ k → w.ties[l]? = some u → (i, j) ∉ u.members
  | .remove k _ _ => k < w.ties.length

/-- The tie that is meant. -/
def Op.tie : Op → Nat
  | .set k _ => k
  | .add k _ _ => k
  | .remove k _ _ => k

/-- What a step guarantees. -/
structure Good (w : World) (k : Nat) (r : Exit × World) : Prop where
  together : Together r.2
  apart : Apart r.2
  defined : r.1 ≠ .ub
  undone : r.1 = .throws → r.2 = w
  sources : r.2.comps.map Comp.srcs = w.comps.map Comp.srcs
  frame : ∀ m, look r.2.comps m ≠ look w.comps m → ∃ t, r.2.ties[k]? = some t ∧ m ∈ t.members

theorem set_eq {α : Type} {l : List α} {k : Nat} {a : α} (h : l[k]? = some a) : l.set k a = l := by
  apply List.ext_getElem?
  intro i
  rw [List.getElem?_set]
  split
  · rename_i hi; subst hi; rw [if_pos (List.getElem?_eq_some_iff.1 h).1, h]
  · rfl

theorem good_set {w : World} (ht : Together w) (ha : Apart w) {k : Nat} {f : Par → Res Par} (hk : k < w.ties.length)
    (hf : ∀ p, f p ≠ .ub) : Good w k (setTie k f w) := by
  have e : w.ties[k]? = some w.ties[k] := List.getElem?_eq_getElem hk
  have hmem : w.ties[k] ∈ w.ties := List.getElem_mem hk
  unfold setTie
  rw [e]
  simp only
  cases hq : f w.ties[k].par with
  | ub => exact absurd hq (hf _)
  | throws => exact ⟨ht, ha, (fun h => by cases h), fun _ => rfl, rfl, fun m h => absurd rfl h⟩
  | ok q =>
    obtain ⟨cs', h1, h2, h3⟩ := setMembers_ok f hq w.ties[k].members w.comps (apart_self ha hmem) (ht _ hmem)
    simp only
    rw [h1]
    refine ⟨?_, ?_, (fun h => by cases h), (fun h => by cases h), h3, ?_⟩
    · intro t htm m hm
      simp only at htm ⊢
      rw [h2]
      rcases mem_set htm with ⟨rfl, -⟩ | ⟨i, hi, hti⟩
      · rw [if_pos hm]
      · rw [if_neg (apart_ne ha hti e hi hm)]
        exact ht t (List.mem_of_getElem? hti) m hm
    · show (List.flatMap _ _).Nodup
      simp only
      rw [members_set e]
      · exact ha
      · rfl
    · intro m hm
      simp only at hm ⊢
      rw [h2] at hm
      refine ⟨_, List.getElem?_set_self hk, ?_⟩
      by_contra hc
      exact hm (if_neg hc)

theorem good_join {w : World} (ht : Together w) (ha : Apart w) {k i j : Nat} {t t' : Tie} (e : w.ties[k]? = some t)
    (hm' : t'.members = t.members) (hl : ∀ m ∈ t'.members, look w.comps m = some t'.par)
    (hij : (look w.comps (i, j)).isSome)
    (hn : ∀ (l : Nat) (u : Tie), l ≠ k → w.ties[l]? = some u → (i, j) ∉ u.members) :
    Good w k (join k i j t' w) ∧ (join k i j t' w).1 = .ok := by
  have hk : k < w.ties.length := (List.getElem?_eq_some_iff.1 e).1
  unfold join
  by_cases hin : (i, j) ∈ t'.members
  · rw [if_pos hin]
    refine ⟨⟨?_, ?_, (fun h => by cases h), (fun h => by cases h), rfl, fun m h => absurd rfl h⟩, rfl⟩
    · intro u hu m hm
      rcases mem_set hu with ⟨rfl, -⟩ | ⟨l, -, hl'⟩
      · exact hl m hm
      · exact ht u (List.mem_of_getElem? hl') m hm
    · show (List.flatMap _ _).Nodup
      simp only
      rw [members_set e hm']
      exact ha
  · rw [if_neg hin]
    obtain ⟨p, hp⟩ := Option.isSome_iff_exists.1 hij
    obtain ⟨c, h1, h2⟩ := get_some hp
    simp only at h1 h2
    have hj : j < c.pars.length := (List.getElem?_eq_some_iff.1 h2).1
    simp only [h1]
    rw [if_pos hj]
    refine ⟨⟨?_, ?_, (fun h => by cases h), (fun h => by cases h), ?_, ?_⟩, rfl⟩
    · intro u hu m hm
      simp only at hu ⊢
      rw [get_set w.comps t'.par h1 h2]
      rcases mem_set hu with ⟨rfl, -⟩ | ⟨l, hlk, hl'⟩
      · by_cases hmij : m = (i, j)
        · rw [if_pos hmij]
        · rw [if_neg hmij]
          rcases List.mem_append.1 hm with hm | hm
          · exact hl m hm
          · exact absurd (List.mem_singleton.1 hm) hmij
      · rw [if_neg (fun h => hn l u hlk hl' (by rw [← h]; exact hm))]
        exact ht u (List.mem_of_getElem? hl') m hm
    · have hnew : ∀ (l : Nat) (u : Tie), (w.ties.set k { t' with members := t'.members ++ [(i, j)] })[l]? = some u →
          l = k ∧ u.members = t.members ++ [(i, j)] ∨ l ≠ k ∧ w.ties[l]? = some u := by
        intro l u h
        by_cases hlk : l = k
        · left
          subst hlk
          rw [List.getElem?_set_self hk] at h
          rw [← Option.some.inj h]
          exact ⟨rfl, by simp only [hm']⟩
        · right
          rw [List.getElem?_set_ne (fun h => hlk h.symm)] at h
          exact ⟨hlk, h⟩
      refine apart_intro (fun l u h => ?_) (fun l l' u u' h h' hne m hm hm' => ?_)
      · rcases hnew l u h with ⟨-, hu⟩ | ⟨-, hu⟩
        · rw [hu]
          rw [hm'] at hin
          exact List.nodup_append.2 ⟨apart_self ha (List.mem_of_getElem? e), List.nodup_singleton _, fun a h1 b h2 h3 => by
            rw [List.mem_singleton] at h2; exact hin (by rw [← h2, ← h3]; exact h1)⟩
        · exact apart_self ha (List.mem_of_getElem? hu)
      · rcases hnew l u h with ⟨h5, hu⟩ | ⟨h5, hu⟩ <;> rcases hnew l' u' h' with ⟨h6, hu'⟩ | ⟨h6, hu'⟩
        · exact hne (h5.trans h6.symm)
        · rw [hu] at hm
          rcases List.mem_append.1 hm with hm | hm
          · exact apart_ne ha e hu' (fun h => h6 h.symm) hm hm'
          · rw [List.mem_singleton.1 hm] at hm'
            exact hn l' u' h6 hu' hm'
        · rw [hu'] at hm'
          rcases List.mem_append.1 hm' with hm' | hm'
          · exact apart_ne ha e hu (fun h => h5 h.symm) hm' hm
          · rw [List.mem_singleton.1 hm'] at hm
            exact hn l u h5 hu hm
        · exact apart_ne ha hu hu' hne hm hm'
    · simp only
      rw [List.map_set]
      exact show (w.comps.map Comp.srcs).set i c.srcs = _ from setMembers_ok.set_same h1
    · intro m hm
      simp only at hm ⊢
      rw [get_set w.comps t'.par h1 h2] at hm
      refine ⟨_, List.getElem?_set_self hk, ?_⟩
      by_cases hmij : m = (i, j)
      · rw [hmij]; exact List.mem_append_right _ (List.mem_singleton.2 rfl)
      · rw [if_neg hmij] at hm; exact absurd rfl hm

/-- In a state in which the members of every tied parameter are equal to it, every setter and
every addition and removal of a member leads to such a state again; a setter that throws
changes nothing; no parameter that is not tied changes, nor does any source. -/
theorem C137_step (w : World) (ht : Together w) (ha : Apart w) (op : Op) (hv : Valid w op) :
    Good w op.tie (step w op) := by
  cases op with
  | set k f => exact good_set ht ha hv.1 hv.2
  | add k i j =>
    obtain ⟨hk, hij, hn⟩ := hv
    have e : w.ties[k]? = some w.ties[k] := List.getElem?_eq_getElem hk
    show Good w k (addParam k i j w)
    unfold addParam
    rw [e]
    simp only
    by_cases hm : w.ties[k].members = []
    · rw [if_pos hm]
      obtain ⟨p, hp⟩ := Option.isSome_iff_exists.1 hij
      obtain ⟨c, h1, h2⟩ := get_some hp
      simp only at h1 h2
      rw [h1]
      simp only
      rw [h2]
      simp only
      exact (good_join ht ha (t' := { w.ties[k] with par := p }) e rfl
        (fun m h => by
          have h : m ∈ w.ties[k].members := h
          rw [hm] at h; cases h) hij hn).1
    · rw [if_neg hm]
      exact (good_join ht ha e rfl (ht _ (List.getElem_mem hk)) hij hn).1
  | remove k i j =>
    have e : w.ties[k]? = some w.ties[k] := List.getElem?_eq_getElem hv
    show Good w k (removeParam k i j w)
    unfold removeParam
    rw [e]
    simp only
    refine ⟨?_, ?_, (fun h => by cases h), (fun h => by cases h), rfl, fun m h => absurd rfl h⟩
    · intro u hu m hm
      simp only at hu
      rcases mem_set hu with ⟨rfl, -⟩ | ⟨l, -, hl'⟩
      · exact ht _ (List.getElem_mem hv) m (List.mem_of_mem_erase hm)
      · exact ht u (List.mem_of_getElem? hl') m hm
    · have hsub : ∀ (l : Nat) (u : Tie),
          (w.ties.set k { w.ties[k] with members := w.ties[k].members.erase (i, j) })[l]? = some u →
          ∃ t, w.ties[l]? = some t ∧ u.members.Sublist t.members := by
        intro l u h
        by_cases hlk : l = k
        · subst hlk
          rw [List.getElem?_set_self hv] at h
          refine ⟨_, e, ?_⟩
          rw [← Option.some.inj h]
          exact List.erase_sublist
        · rw [List.getElem?_set_ne (fun h => hlk h.symm)] at h
          exact ⟨u, h, List.Sublist.refl _⟩
      refine apart_intro (fun l u h => ?_) (fun l l' u u' h h' hne m hm hm' => ?_)
      · obtain ⟨t, h1, h2⟩ := hsub l u h
        exact (apart_self ha (List.mem_of_getElem? h1)).sublist h2
      · obtain ⟨t, h1, h2⟩ := hsub l u h
        obtain ⟨t', h3, h4⟩ := hsub l' u' h'
        exact apart_ne ha h1 h3 hne (h2.subset hm) (h4.subset hm')

/-- The states that are reached by any number of operations. -/
inductive Reach (w0 : World) : World → Prop
  | start : Reach w0 w0
  | step {w : World} (h : Reach w0 w) (op : Op) (hv : Valid w op) : Reach w0 (step w op).2

/-- Hence after any history of setters, additions and removals, all members of a tied parameter
are equal to it, and the next operation does not fail for another reason than its setter's. -/
theorem C137_always (w0 w : World) (ht : Together w0) (ha : Apart w0) (h : Reach w0 w) :
    Together w ∧ Apart w ∧ w.comps.map Comp.srcs = w0.comps.map Comp.srcs := by
  induction h with
  | start => exact ⟨ht, ha, rfl⟩
  | step h op hv ih =>
    have := C137_step _ ih.1 ih.2.1 op hv
    exact ⟨this.together, this.apart, this.sources.trans ih.2.2⟩

/-- Two components with two sources each, and a tied parameter without members to begin with. -/
def exSrcs : List Src := [⟨1, [⟨0, 1, true⟩, ⟨1, 2, true⟩]⟩, ⟨2, [⟨0, 3, true⟩, ⟨1, 2.5, true⟩]⟩]

def exWorld : World := ⟨[⟨exSrcs, flat exSrcs⟩, ⟨exSrcs, flat exSrcs⟩], [⟨⟨0, 0, false⟩, []⟩]⟩

example : Together exWorld ∧ Apart exWorld ∧ Valid exWorld (.add 0 0 1) ∧
    Valid (step exWorld (.add 0 0 1)).2 (.add 0 1 1) ∧
    Valid (step (step exWorld (.add 0 0 1)).2 (.add 0 1 1)).2 (.set 0 fun p => .ok { p with value := 7 }) := by
  refine ⟨?_, by unfold Apart; simp [exWorld], ⟨by simp [exWorld], by rfl, ?_⟩, ⟨?_, by rfl, ?_⟩, ⟨?_, fun p => by simp⟩⟩
  · intro t ht m hm
    simp [exWorld] at ht
    subst ht
    cases hm
  · intro l u hl hu
    have : l < 1 := (List.getElem?_eq_some_iff.1 hu).1
    omega
  · show 0 < List.length _
    simp [step, addParam, join, exWorld, exSrcs, flat]
  · intro l u hl hu
    have : l < _ := (List.getElem?_eq_some_iff.1 hu).1
    simp [step, addParam, join, exWorld, exSrcs, flat] at this
    omega
  · simp [step, addParam, join, exWorld, exSrcs, flat]

/-- When the parameters are given to the sources, and names and freedom are as in the sources,
the sources get the values of all free parameters, the vector and the sources agree afterwards,
and the parameters that are fixed are as the sources have them. -/
theorem C137_given (c : Comp) (h : Alike c) :
    ∃ c', syncComp c = .ok c' ∧ c'.pars = List.zipWith merge (c.srcs.flatMap Src.pars) c.pars ∧
      c'.srcs.flatMap Src.pars = c'.pars ∧ c'.srcs.map Src.name = c.srcs.map Src.name := by
  obtain ⟨srcs', h1, h2, h3⟩ := giveAll_ok c.srcs c.pars h.1 h.2
  refine ⟨sync { c with srcs := srcs' }, ?_, h2, rfl, h3⟩
  unfold syncComp setFreeParams
  rw [if_neg (by unfold numFree; simp), h1, Res.bind_ok]

example : Alike ⟨exSrcs, [⟨0, 1, true⟩, ⟨1, 7, true⟩, ⟨0, 3, true⟩, ⟨1, 7, true⟩]⟩ := by
  refine ⟨?_, ?_⟩
  · simp [exSrcs]
  · intro s hs
    simp [exSrcs] at hs
    rcases hs with rfl | rfl <;> simp

/-- The value of a tied parameter that is fixed does not reach the sources: after setting it and
giving the parameters to the sources the member has its old value again, and the tied parameter
the new one. -/
theorem C137_fixed_violates : ∃ (w : World) (c' : Comp) (t : Tie), Together w ∧ Apart w ∧
    (setTie 0 (fun p => .ok { p with value := 7 }) w).1 = .ok ∧
    (setTie 0 (fun p => .ok { p with value := 7 }) w).2.ties = [t] ∧ t.par.value = 7 ∧
    (setTie 0 (fun p => .ok { p with value := 7 }) w).2.comps.mapM syncComp = .ok [c'] ∧
    ∃ p, c'.pars[0]? = some p ∧ p.value = 1 ∧ (0, 0) ∈ t.members := by
  refine ⟨⟨[⟨[⟨1, [⟨0, 1, false⟩]⟩], [⟨0, 1, false⟩]⟩], [⟨⟨0, 1, false⟩, [(0, 0)]⟩]⟩,
    ⟨[⟨1, [⟨0, 1, false⟩]⟩], [⟨0, 1, false⟩]⟩, ⟨⟨0, 7, false⟩, [(0, 0)]⟩, ?_, ?_, rfl, rfl, rfl, rfl,
    ⟨0, 1, false⟩, rfl, rfl, by simp⟩
  · intro t ht m hm
    simp at ht
    subst ht
    simp at hm
    subst hm
    rfl
  · unfold Apart; simp

/-- When a source behind all the members is deleted or added, the members are the parameters
they were. -/
theorem C137_behind_partial (a b : List Src) (s : Src) (m : Nat) (hm : m < (flat a).length)
    (hs : ∀ x ∈ a ++ b, x.name ≠ s.name) (hlt : ∀ x ∈ a, x.name < s.name) (hgt : ∀ x ∈ b, s.name < x.name) :
    (∃ c', deleteSource s.name ⟨a ++ s :: b, flat (a ++ s :: b)⟩ = .ok c' ∧
      c'.pars[m]? = (flat (a ++ s :: b))[m]?) ∧
    ∃ c', addSource s ⟨a ++ b, flat (a ++ b)⟩ = .ok c' ∧ c'.pars[m]? = (flat (a ++ b))[m]? := by
  have hflat : ∀ l : List Src, (flat (a ++ l))[m]? = (flat a)[m]? := by
    intro l
    rw [show flat (a ++ l) = flat a ++ flat l from List.flatMap_append, List.getElem?_append_left hm]
  refine ⟨⟨_, if_pos (by simp), ?_⟩, ⟨_, if_neg ?_, ?_⟩⟩
  · have : (a ++ s :: b).filter (fun x => x.name != s.name) = a ++ b := by
      rw [List.filter_append, List.filter_cons_of_neg (by simp), ← List.filter_append, List.filter_eq_self]
      intro x hx
      simpa using hs x hx
    show (flat ((a ++ s :: b).filter _))[m]? = _
    rw [this, hflat, hflat]
  · simp only [List.any_eq_true, not_exists, not_and]
    intro x hx
    simpa using hs x hx
  · have : ∀ a : List Src, (∀ x ∈ a, x.name < s.name) → insertSrc s (a ++ b) = a ++ s :: b := by
      intro a
      induction a with
      | nil =>
        intro _
        cases b with
        | nil => rfl
        | cons x b => rw [List.nil_append, insertSrc, if_pos (hgt x (List.mem_cons_self ..))]; rfl
      | cons x a ih =>
        intro h
        have hx := h x (List.mem_cons_self ..)
        rw [List.cons_append, insertSrc, if_neg (by omega), ih fun y hy => h y (List.mem_cons_of_mem _ hy)]
        rfl
    show (flat (insertSrc s (a ++ b)))[m]? = _
    rw [this a hlt, hflat, hflat]

example : (1 : Nat) < (flat [⟨1, [⟨0, 1, true⟩, ⟨1, 2, true⟩]⟩]).length ∧
    (∀ x ∈ ([⟨1, [⟨0, 1, true⟩, ⟨1, 2, true⟩]⟩] : List Src), x.name < (⟨5, [⟨0, 1, true⟩]⟩ : Src).name) := by
  refine ⟨by simp [flat], ?_⟩
  intro x hx
  simp at hx
  subst hx
  simp

/-- The members are numbers in a vector that changes with the model.  When a source in front of
a member is deleted, the tied parameter governs another parameter than it was made for: if the
first source, with at least one parameter, is deleted and the tied parameter is set to `q`, the
parameters of all sources are as before except that with the old number, which is not the member
any more; a parameter of the next source that was tied does not change. -/
theorem C137_deleted_violates (s b : Src) (rest : List Src) (j : Nat) (p q : Par) (hs : s.pars ≠ [])
    (hj : b.pars[j]? = some p) (hn : ∀ x ∈ b :: rest, x.name ≠ s.name)
    (hlen : s.pars.length + j < (flat (b :: rest)).length) :
    look [⟨s :: b :: rest, flat (s :: b :: rest)⟩] (0, s.pars.length + j) = some p ∧
    ∃ c', deleteSource s.name ⟨s :: b :: rest, flat (s :: b :: rest)⟩ = .ok c' ∧
      ∃ w', setTie 0 (fun _ => .ok q) ⟨[c'], [⟨p, [(0, s.pars.length + j)]⟩]⟩ = (.ok, w') ∧
        look w'.comps (0, j) = some p ∧ look w'.comps (0, s.pars.length + j) = some q := by
  have hjl : j < b.pars.length := (List.getElem?_eq_some_iff.1 hj).1
  have hs' : 0 < s.pars.length := List.length_pos_of_ne_nil hs
  have e1 : flat (s :: b :: rest) = s.pars ++ (b.pars ++ flat rest) := by
    unfold flat; rw [List.flatMap_cons, List.flatMap_cons]
  have e2 : flat (b :: rest) = b.pars ++ flat rest := by unfold flat; rw [List.flatMap_cons]
  have hfil : (s :: b :: rest).filter (fun x => x.name != s.name) = b :: rest := by
    rw [List.filter_cons_of_neg (by simp), List.filter_eq_self]
    intro x hx
    simpa using hn x hx
  refine ⟨?_, ⟨b :: rest, flat (b :: rest)⟩, ?_, ⟨[⟨b :: rest, (flat (b :: rest)).set (s.pars.length + j) q⟩],
    [⟨q, [(0, s.pars.length + j)]⟩]⟩, ?_, ?_, ?_⟩
  · show (flat (s :: b :: rest))[s.pars.length + j]? = some p
    rw [e1, List.getElem?_append_right (by omega), Nat.add_sub_cancel_left, List.getElem?_append_left hjl, hj]
  · unfold deleteSource
    rw [if_pos (by simp)]
    simp only [hfil]
    rfl
  · unfold setTie
    simp only [List.getElem?_cons_zero, setMembers, List.getElem?_eq_getElem hlen, List.set_cons_zero]
  · show ((flat (b :: rest)).set (s.pars.length + j) q)[j]? = some p
    rw [List.getElem?_set_ne (by omega), e2, List.getElem?_append_left hjl, hj]
  · show ((flat (b :: rest)).set (s.pars.length + j) q)[s.pars.length + j]? = some q
    rw [List.getElem?_set_self hlen]

/-- The first of two sources is deleted: the tied first parameter of the second is lost. -/
example : ∃ (s b : Src) (p : Par), s.pars ≠ [] ∧ b.pars[0]? = some p ∧ (∀ x ∈ [b], x.name ≠ s.name) ∧
    s.pars.length + 0 < (flat [b]).length :=
  ⟨⟨1, [⟨0, 1, true⟩]⟩, ⟨2, [⟨0, 3, true⟩, ⟨1, 2.5, true⟩]⟩, ⟨0, 3, true⟩, by simp, rfl, by simp, by simp [flat]⟩

/-- When a tied parameter is fixed, giving the parameters to the sources reads beyond the end of
the vector of free parameters, as the sources still count it among the free ones. -/
theorem C137_fixing_violates : ∃ w : World, Together w ∧ Apart w ∧
    (∀ c ∈ w.comps, Alike c ∧ c.pars = c.srcs.flatMap Src.pars) ∧
    ∃ w', setTie 0 (fun p => .ok { p with free := false }) w = (.ok, w') ∧ w'.comps.mapM syncComp = .ub := by
  refine ⟨⟨[⟨[⟨1, [⟨0, 1, true⟩]⟩], [⟨0, 1, true⟩]⟩], [⟨⟨0, 1, true⟩, [(0, 0)]⟩]⟩, ?_, ?_, ?_, _, rfl, rfl⟩
  · intro t ht m hm
    simp at ht
    subst ht
    simp at hm
    subst hm
    rfl
  · unfold Apart; simp
  · intro c hc
    simp at hc
    subst hc
    refine ⟨⟨by simp, ?_⟩, rfl⟩
    intro s hs
    simp at hs
    subst hs
    simp

/-- When a tied parameter is made free, giving the parameters to the sources changes a parameter
that was neither tied nor set: the first source gets as many as it had free before, and those
left over go to the next source by their names.  Here the second source's parameter, 5 before, is
6 afterwards, the value of the first one's parameter of the same name. -/
theorem C137_freeing_violates : ∃ (w w' : World) (c' : Comp), Together w ∧ Apart w ∧
    (∀ c ∈ w.comps, Alike c ∧ c.pars = c.srcs.flatMap Src.pars) ∧
    setTie 0 (fun p => .ok { p with free := true }) w = (.ok, w') ∧ w'.comps.mapM syncComp = .ok [c'] ∧
    ∃ p p', (w.comps[0]?.bind fun c => ofSource c 2 0) = some p ∧ p.value = 5 ∧
      ofSource c' 2 0 = some p' ∧ p'.value = 6 ∧ (∀ t ∈ w.ties, t.members = [(0, 0)]) := by
  refine ⟨⟨[⟨[⟨1, [⟨0, 1, false⟩, ⟨1, 6, true⟩]⟩, ⟨2, [⟨1, 5, false⟩, ⟨0, 8, true⟩]⟩],
      [⟨0, 1, false⟩, ⟨1, 6, true⟩, ⟨1, 5, false⟩, ⟨0, 8, true⟩]⟩], [⟨⟨0, 1, false⟩, [(0, 0)]⟩]⟩, _, _, ?_, ?_, ?_, rfl, rfl,
      ⟨1, 5, false⟩, ⟨1, 6, true⟩, rfl, rfl, rfl, rfl, ?_⟩
  · intro t ht m hm
    simp at ht
    subst ht
    simp at hm
    subst hm
    rfl
  · unfold Apart; simp
  · intro c hc
    simp at hc
    subst hc
    refine ⟨⟨by simp, ?_⟩, rfl⟩
    intro s hs
    simp at hs
    rcases hs with rfl | rfl <;> simp
  · intro t ht
    simp at ht
    subst ht
    rfl

/-- A new member with a number that is too high is refused with an exception, but it stays in
the list: every setter throws from then on, after having changed the tied parameter and the
other members. -/
theorem C137_member_violates : ∃ w w' w'' : World, Together w ∧ Apart w ∧ addParam 0 0 9 w = (.throws, w') ∧
    setTie 0 (fun p => .ok { p with value := 7 }) w' = (.throws, w'') ∧ ¬ Together w' ∧
    (∃ t p, w''.ties = [t] ∧ t.par.value = 7 ∧ look w''.comps (0, 0) = some p ∧ p.value = 7) := by
  refine ⟨⟨[⟨[⟨1, [⟨0, 1, true⟩]⟩], [⟨0, 1, true⟩]⟩], [⟨⟨0, 1, true⟩, [(0, 0)]⟩]⟩,
    ⟨[⟨[⟨1, [⟨0, 1, true⟩]⟩], [⟨0, 1, true⟩]⟩], [⟨⟨0, 1, true⟩, [(0, 0), (0, 9)]⟩]⟩,
    ⟨[⟨[⟨1, [⟨0, 1, true⟩]⟩], [⟨0, 7, true⟩]⟩], [⟨⟨0, 7, true⟩, [(0, 0), (0, 9)]⟩]⟩, ?_, ?_, rfl, rfl, ?_,
    ⟨⟨0, 7, true⟩, [(0, 0), (0, 9)]⟩, ⟨0, 7, true⟩, rfl, rfl, rfl, rfl⟩
  · intro t ht m hm
    simp at ht
    subst ht
    simp at hm
    subst hm
    rfl
  · unfold Apart; simp
  · intro h
    have := h ⟨⟨0, 1, true⟩, [(0, 0), (0, 9)]⟩ (by simp) (0, 9) (by simp)
    cases this

end Verif.Ties
