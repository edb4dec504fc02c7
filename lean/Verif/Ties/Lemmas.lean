import Verif.Ties.Model
import Verif.Ties.Spec
import Mathlib.Data.List.Nodup
import Mathlib.Data.List.Forall2
import Mathlib.Tactic.Common
/-
Lemmas about tied parameters.
-/
set_option linter.unusedSectionVars false
set_option linter.unusedVariables false
set_option linter.unusedSimpArgs false
namespace Verif.Ties
open Spec

theorem get_set (cs : List Comp) {c : Comp} {i j : Nat} (q : Par) (hc : cs[i]? = some c) {p : Par}
    (hp : c.pars[j]? = some p) (m : Nat × Nat) :
    look (cs.set i { c with pars := c.pars.set j q }) m = if m = (i, j) then some q else look cs m := by
  obtain ⟨a, b⟩ := m
  have hi : i < cs.length := (List.getElem?_eq_some_iff.1 hc).1
  have hj : j < c.pars.length := (List.getElem?_eq_some_iff.1 hp).1
  unfold look
  simp only
  by_cases ha : a = i
  · subst ha
    rw [List.getElem?_set_self hi, hc]
    simp only [Option.bind_some]
    by_cases hb : b = j
    · subst hb
      rw [List.getElem?_set_self hj, if_pos rfl]
    · rw [List.getElem?_set_ne (fun h => hb h.symm), if_neg (fun h => hb (congrArg Prod.snd h))]
  · rw [List.getElem?_set_ne (fun h => ha h.symm), if_neg (fun h => ha (congrArg Prod.fst h))]

theorem get_some {cs : List Comp} {m : Nat × Nat} {p : Par} (h : look cs m = some p) :
    ∃ c, cs[m.1]? = some c ∧ c.pars[m.2]? = some p := Option.bind_eq_some_iff.1 h

/-- The loop of a setter when all members are alike. -/
theorem setMembers_ok (f : Par → Res Par) {p q : Par} (hf : f p = .ok q) : ∀ (ms : List (Nat × Nat)) (cs : List Comp),
    ms.Nodup → (∀ m ∈ ms, look cs m = some p) → ∃ cs', setMembers f ms cs = (.ok, cs') ∧
      (∀ m, look cs' m = if m ∈ ms then some q else look cs m) ∧ cs'.map Comp.srcs = cs.map Comp.srcs
  | [], cs, _, _ => ⟨cs, rfl, fun m => by simp, rfl⟩
  | m :: ms, cs, hn, hm => by
    obtain ⟨c, h1, h2⟩ := get_some (hm m (List.mem_cons_self ..))
    have hn' := List.nodup_cons.1 hn
    obtain ⟨cs', e1, e2, e3⟩ := setMembers_ok f hf ms (cs.set m.1 { c with pars := c.pars.set m.2 q }) hn'.2
      fun x hx => by
        rw [get_set cs q h1 h2, if_neg (fun h => hn'.1 (by have h : x = m := h; rw [← h]; exact hx))]
        exact hm x (List.mem_cons_of_mem _ hx)
    refine ⟨cs', ?_, fun x => ?_, ?_⟩
    · rw [setMembers, h1]
      simp only
      rw [h2]
      simp only
      rw [hf]
      simp only
      exact e1
    · rw [e2, get_set cs q h1 h2]
      by_cases hx : x ∈ ms
      · rw [if_pos hx, if_pos (List.mem_cons_of_mem _ hx)]
      · rw [if_neg hx]
        by_cases hxm : x = m
        · rw [if_pos (show x = (m.1, m.2) from hxm), if_pos (by rw [hxm]; exact List.mem_cons_self ..)]
        · rw [if_neg (show ¬ x = (m.1, m.2) from hxm), if_neg (by simp [hxm, hx])]
    · rw [e3, List.map_set]
      exact show (cs.map Comp.srcs).set m.1 c.srcs = _ from set_same h1
where
  /-- Writing back what is there. -/
  set_same {cs : List Comp} {i : Nat} {c : Comp} (h : cs[i]? = some c) :
      (cs.map Comp.srcs).set i c.srcs = cs.map Comp.srcs := by
    apply List.ext_getElem?
    intro k
    rw [List.getElem?_set]
    split
    · rename_i hk
      subst hk
      have hi := (List.getElem?_eq_some_iff.1 h).1
      rw [if_pos (by rw [List.length_map]; exact hi), List.getElem?_map, h]; rfl
    · rfl

theorem members_set {ties : List Tie} {k : Nat} {t t' : Tie} (hk : ties[k]? = some t) (h : t'.members = t.members) :
    (ties.set k t').flatMap Tie.members = ties.flatMap Tie.members := by
  rw [List.flatMap_def, List.flatMap_def, List.map_set, h]
  congr 1
  apply List.ext_getElem?
  intro i
  rw [List.getElem?_set]
  split
  · rename_i hi
    subst hi
    rw [if_pos (by rw [List.length_map]; exact (List.getElem?_eq_some_iff.1 hk).1), List.getElem?_map, hk]; rfl
  · rfl

/-- Different ties have no common members. -/
theorem apart_ne {w : World} (h : Apart w) {k l : Nat} {t u : Tie} (hk : w.ties[k]? = some t) (hl : w.ties[l]? = some u)
    (hkl : k ≠ l) {m : Nat × Nat} (hm : m ∈ t.members) : m ∉ u.members := by
  intro hu
  have h := (List.nodup_flatMap.1 h).2
  obtain ⟨h1, h2⟩ := List.getElem?_eq_some_iff.1 hk
  obtain ⟨h3, h4⟩ := List.getElem?_eq_some_iff.1 hl
  rcases lt_or_gt_of_ne hkl with hlt | hlt
  · have := List.pairwise_iff_getElem.1 h k l h1 h3 hlt
    rw [h2, h4] at this
    exact this hm hu
  · have := List.pairwise_iff_getElem.1 h l k h3 h1 hlt
    rw [h2, h4] at this
    exact this hu hm

/-- The same, the other way round. -/
theorem apart_intro {w : World} (h1 : ∀ (k : Nat) (t : Tie), w.ties[k]? = some t → t.members.Nodup)
    (h2 : ∀ (k l : Nat) (t u : Tie), w.ties[k]? = some t → w.ties[l]? = some u → k ≠ l → ∀ m ∈ t.members, m ∉ u.members) :
    Apart w := by
  refine List.nodup_flatMap.2 ⟨fun t ht => ?_, List.pairwise_iff_getElem.2 fun i j hi hj hij m hm hu => ?_⟩
  · obtain ⟨k, hk, rfl⟩ := List.mem_iff_getElem.1 ht
    exact h1 k _ (List.getElem?_eq_getElem hk)
  · exact h2 i j _ _ (List.getElem?_eq_getElem hi) (List.getElem?_eq_getElem hj) (by omega) m hm hu

theorem apart_self {w : World} (h : Apart w) {t : Tie} (ht : t ∈ w.ties) : t.members.Nodup :=
  (List.nodup_flatMap.1 h).1 t ht

/-- An element of a list with one entry replaced. -/
theorem mem_set {α : Type} {l : List α} {k : Nat} {a x : α} (h : x ∈ l.set k a) :
    x = a ∧ k < l.length ∨ ∃ i, i ≠ k ∧ l[i]? = some x := by
  obtain ⟨i, hi, rfl⟩ := List.mem_iff_getElem.1 h
  rw [List.length_set] at hi
  rw [List.getElem_set]
  split
  · rename_i hk; left; exact ⟨rfl, by omega⟩
  · rename_i hk; right; exact ⟨i, fun h => hk h.symm, List.getElem?_eq_getElem hi⟩

theorem setFn_append (p o : Par) (a b : List Par) (ho : o.name = p.name) (ha : ∀ x ∈ a, x.name ≠ p.name) :
    setFn p (a ++ o :: b) = some (a ++ p :: b) := by
  induction a with
  | nil => rw [List.nil_append, setFn, if_pos ho]; rfl
  | cons x a ih =>
    rw [List.cons_append, setFn, if_neg (ha x (List.mem_cons_self ..)),
      ih fun y hy => ha y (List.mem_cons_of_mem _ hy)]
    rfl

/-- The parameters given to one source. -/
theorem give_ok : ∀ (old new : List Par) (done rest : List Par),
    List.Forall₂ (fun n o : Par => n.name = o.name ∧ n.free = o.free) new old →
    ((done ++ old).map Par.name).Nodup →
    give (numFree old) (new.filter Par.free ++ rest) (done ++ old) =
      .ok (done ++ List.zipWith merge old new, rest)
  | _, _, done, rest, .nil, _ => by simp [numFree, give]
  | o :: old, n :: new, done, rest, .cons h hs, hd => by
    have hnext : ∀ x : Par, x.name = o.name → ((done ++ [x] ++ old).map Par.name).Nodup := by
      intro x hx
      simpa [hx] using hd
    cases hf : n.free with
    | true =>
      have e1 : numFree (o :: old) = numFree old + 1 := by
        unfold numFree; rw [List.filter_cons_of_pos (by rw [← h.2]; exact hf)]; rfl
      have hset : setFn n (done ++ o :: old) = some (done ++ n :: old) := by
        refine setFn_append n o done old h.1.symm fun x hx => ?_
        rw [List.map_append, List.nodup_append] at hd
        rw [h.1]
        exact hd.2.2 x.name (List.mem_map_of_mem hx) o.name (List.mem_map_of_mem (List.mem_cons_self ..))
      rw [List.filter_cons_of_pos hf, e1, List.cons_append, give, hset]
      simp only
      have := give_ok old new (done ++ [n]) rest hs (hnext n h.1)
      rw [List.append_assoc, List.singleton_append] at this
      rw [this, List.zipWith_cons_cons]
      unfold merge
      rw [if_pos hf, List.append_assoc, List.singleton_append]
    | false =>
      have e1 : numFree (o :: old) = numFree old := by
        unfold numFree; rw [List.filter_cons_of_neg (by rw [← h.2, hf]; exact Bool.false_ne_true)]
      rw [List.filter_cons_of_neg (by rw [hf]; exact Bool.false_ne_true), e1]
      have := give_ok old new (done ++ [o]) rest hs (hnext o rfl)
      rw [List.append_assoc, List.singleton_append] at this
      rw [this, List.zipWith_cons_cons]
      unfold merge
      rw [if_neg (by rw [hf]; exact Bool.false_ne_true), List.append_assoc, List.singleton_append]

/-- The parameters given to all sources. -/
theorem giveAll_ok : ∀ (srcs : List Src) (new : List Par),
    List.Forall₂ (fun n o : Par => n.name = o.name ∧ n.free = o.free) new (flat srcs) →
    (∀ s ∈ srcs, (s.pars.map Par.name).Nodup) →
    ∃ srcs', giveAll (new.filter Par.free) srcs = .ok srcs' ∧ flat srcs' = List.zipWith merge (flat srcs) new ∧
      srcs'.map Src.name = srcs.map Src.name
  | [], new, h, _ => by
    cases h
    exact ⟨[], rfl, rfl, rfl⟩
  | s :: ss, new, h, hn => by
    have e : flat (s :: ss) = s.pars ++ flat ss := List.flatMap_cons
    rw [e] at h
    have h1 := List.forall₂_take_append new s.pars (flat ss) h
    have h2 := List.forall₂_drop_append new s.pars (flat ss) h
    have hlen : (new.take s.pars.length).length = s.pars.length := h1.length_eq
    obtain ⟨ss', e1, e2, e3⟩ := giveAll_ok ss _ h2 fun x hx => hn x (List.mem_cons_of_mem _ hx)
    have hg := give_ok s.pars (new.take s.pars.length) [] ((new.drop s.pars.length).filter Par.free) h1
      (by rw [List.nil_append]; exact hn s (List.mem_cons_self ..))
    rw [← List.filter_append, List.take_append_drop, List.nil_append, List.nil_append] at hg
    refine ⟨{ s with pars := List.zipWith merge s.pars (new.take s.pars.length) } :: ss', ?_, ?_, ?_⟩
    · rw [giveAll, hg, Res.bind_ok]
      simp only
      rw [e1, Res.bind_ok]
    · have : flat ({ s with pars := List.zipWith merge s.pars (new.take s.pars.length) } :: ss') =
        List.zipWith merge s.pars (new.take s.pars.length) ++ flat ss' := List.flatMap_cons
      rw [this, e2, e, ← List.zipWith_append hlen.symm, List.take_append_drop]
    · rw [List.map_cons, List.map_cons, e3]

end Verif.Ties
