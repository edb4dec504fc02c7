import Mathlib.Order.Nat
import Verif.Factory.Sim

/-!
# The source factory: properties

C154: a source factory is a table of sources by name: what is created is what was registered, nothing is deleted twice, used after
it was deleted or lost.
-/

set_option linter.unusedSectionVars false
set_option linter.unusedSimpArgs false
set_option linter.unusedVariables false

namespace Verif.Factory

open Verif.StdMap
open Spec (upd addAll Owns Legal Fresh Step Run)

variable {N V : Type} [LinearOrder N]

/-- The call does not read a file. -/
def NoFile : Op N V → Prop
  | .load _ => False
  | .nest _ => False
  | _ => True

theorem reach (ops : List (Op N V)) : ∃ pre outs st σ, pre <+: ops ∧ run St.empty pre = .ok (st, outs) ∧ Run Spec.start pre outs σ ∧
    Sim st σ ∧ ((∀ op ∈ pre, NoFile op) → σ.lost = 0) ∧ (∀ l, pre = l ++ [.close] → ∀ n, σ.proto n = none) ∧
    (pre = ops ∨ ∃ op, (pre ++ [op]) <+: ops ∧ ¬ Legal σ op) := by
  induction ops using List.reverseRecOn with
  | nil => exact ⟨[], [], St.empty, Spec.start, List.prefix_rfl, rfl, .nil _, rel_empty, fun _ => rfl, fun _ _ _ => rfl, Or.inl rfl⟩
  | append_singleton ops op ih =>
    obtain ⟨pre, outs, st, σ, h1, h2, h3, h4, h5, hz, h6⟩ := ih
    rcases h6 with rfl | ⟨op', h6, h7⟩
    · by_cases hl : Legal σ op
      · obtain ⟨o, s', σ', k1, k2, k3⟩ := step_sim h4 op hl
        refine ⟨pre ++ [op], outs ++ [o], s', σ', List.prefix_rfl, run_snoc h2 k1, .snoc h3 k2, k3, fun hn => ?_, fun l hl' n => ?_, Or.inl rfl⟩
        rotate_left
        · obtain ⟨-, e⟩ := List.append_inj' hl' rfl
          cases e
          cases k2
          rfl
        have h0 := h5 (fun a ha => hn a (List.mem_append_left _ ha))
        have hop := hn op (by simp)
        cases k2 <;> first | exact h0 | exact hop.elim
      · exact ⟨pre, outs, st, σ, List.prefix_append _ _, h2, h3, h4, h5, hz, Or.inr ⟨op, List.prefix_rfl, hl⟩⟩
    · exact ⟨pre, outs, st, σ, h1.trans (List.prefix_append _ _), h2, h3, h4, h5, hz, Or.inr ⟨op', h6.trans (List.prefix_append _ _), h7⟩⟩

/-- As long as the client uses only sources it owns, every call has a defined outcome, and it is the one expected of a table of sources by
name. -/
theorem C154_refines (ops : List (Op N V)) : ∃ pre outs st σ, pre <+: ops ∧ run St.empty pre = .ok (st, outs) ∧
    Run Spec.start pre outs σ ∧ (∀ n, find st.protos n = none ↔ σ.proto n = none) ∧
    alive st = st.protos.length + σ.own.countP Option.isSome + σ.lost ∧
    (pre = ops ∨ ∃ op, (pre ++ [op]) <+: ops ∧ ¬ Legal σ op) := by
  obtain ⟨pre, outs, st, σ, h1, h2, h3, h4, h5, hz, h6⟩ := reach ops
  exact ⟨pre, outs, st, σ, h1, h2, h3, fun n => ⟨h4.absent n, fun h => Rel.find_none h4 h⟩, h4.count, h6⟩

/-- Without files being read nothing is lost: after the factory is destroyed what is left is what the client owns. -/
theorem C154_no_leak (ops : List (Op N V)) (hn : ∀ op ∈ ops, NoFile op) : ∃ pre outs st σ, pre <+: ops ++ [.close] ∧
    run St.empty pre = .ok (st, outs) ∧ Run Spec.start pre outs σ ∧
    ((pre = ops ++ [.close] ∧ alive st = σ.own.countP Option.isSome) ∨ ∃ op, (pre ++ [op]) <+: ops ++ [.close] ∧ ¬ Legal σ op) := by
  obtain ⟨pre, outs, st, σ, h1, h2, h3, h4, h5, hz, h6⟩ := reach (ops ++ [.close])
  have hp : ∀ op ∈ pre, NoFile op := by
    intro op hop
    rcases List.mem_append.mp (h1.subset hop) with h | h
    · exact hn op h
    · rw [List.mem_singleton] at h; subst h; trivial
  refine ⟨pre, outs, st, σ, h1, h2, h3, ?_⟩
  rcases h6 with h6 | h6
  · refine Or.inl ⟨h6, ?_⟩
    have hc := h4.count
    rw [h5 hp] at hc
    have hm : st.protos = [] := by
      cases hp : st.protos with
      | nil => rfl
      | cons y m =>
        obtain ⟨x, -, hx⟩ := h4.val y.1 y.2 (by rw [hp]; simp [find])
        rw [hz ops h6 y.1] at hx
        cases hx
    unfold alive
    rw [hc, hm]
    simp
  · exact Or.inr h6

/-- Replacing a prototype by itself (the client kept the pointer it handed over) reads the name of a source that was deleted. -/
theorem C154_replace_self_violates (n : N) (v : V) (c : Bool) :
    run (St.empty : St N V) [.make ⟨n, v⟩, .add n 0 false, .replace 0 c] = .ub ∧
    ∀ (s : St N V) (i p : Nat) (x : Src N V), s.vars[i]? = some p → s.heap[p]? = some (some x) → find s.protos x.name = some p →
      step s (.replace i c) = .ub := by
  have key : ∀ (s : St N V) (i p : Nat) (x : Src N V), s.vars[i]? = some p → s.heap[p]? = some (some x) → find s.protos x.name = some p →
      step s (.replace i c) = .ub := by
    intro s i p x h1 h2 h3
    have hd : deref (s.heap.set p none) p = .ub := by
      unfold deref
      rw [List.getElem?_set_self (lt_of_live h2)]
    simp only [step, vget_of h1, Res.bind_ok, replaceSource, deref_ok h2, h3, free_ok h2, hd, Res.bind_ub]
  refine ⟨?_, key⟩
  have h1 : step (St.empty : St N V) (.make ⟨n, v⟩) = .ok (⟨[some ⟨n, v⟩], [], [0]⟩, .done) := rfl
  have h2 : step (⟨[some ⟨n, v⟩], [], [0]⟩ : St N V) (.add n 0 false) = .ok (⟨[some ⟨n, v⟩], [(n, 0)], [0]⟩, .done) := rfl
  have h3 := key (⟨[some ⟨n, v⟩], [(n, 0)], [0]⟩ : St N V) 0 0 ⟨n, v⟩ rfl rfl (by simp [find])
  simp only [run, h1, h2, h3, Res.bind_ok, Res.bind_ub]

theorem load_inv {σ σ' : Spec.State N V} {l : List (Src N V)} {o : Out N V} (h : Step σ (.load l) o σ') :
    (o = .done ∧ Fresh σ.proto l ∧ σ' = { σ with proto := addAll σ.proto l }) ∨
    (o = .threw ∧ ∃ pre s post, l = pre ++ s :: post ∧ Fresh σ.proto pre ∧ addAll σ.proto pre s.name ≠ none ∧
      σ' = { σ with proto := addAll σ.proto pre, lost := σ.lost + (post.length + 1) }) := by
  generalize he : Op.load l = op at h
  cases h <;> cases he
  · rename_i h; exact Or.inl ⟨rfl, h, rfl⟩
  · rename_i pre s post h1 h2
    exact Or.inr ⟨rfl, pre, s, post, rfl, h1, h2, rfl⟩

theorem nest_inv {σ σ' : Spec.State N V} {l : List (Src N V)} {o : Out N V} (h : Step σ (.nest l) o σ') (hf : Fresh σ.proto l) :
    o = .parts l ∧ σ' = { σ with lost := σ.lost + l.length } := by
  generalize he : Op.nest l = op at h
  cases h <;> cases he
  · exact ⟨rfl, rfl⟩
  · rename_i pre s post h1 h2
    exact absurd (hf.2 s (by simp)) h2
  · rename_i pre s post h1 h2 h3
    have := hf.1
    rw [List.map_append, List.map_cons, List.nodup_append] at this
    exact absurd rfl (this.2.2 s.name h3 s.name (by simp))

theorem addAll_none {l : List (Src N V)} : ∀ {P : N → Option (Src N V)} {n : N}, addAll P l n = none ↔ P n = none ∧ n ∉ l.map Src.name := by
  induction l with
  | nil => intro P n; simp [addAll]
  | cons x l ih =>
    intro P n
    have : addAll P (x :: l) n = addAll (upd P x.name (some x)) l n := rfl
    rw [this, ih]
    unfold upd
    by_cases h : n = x.name
    · simp [h]
    · simp [h]

/-- The sources before the first offending one are the same whichever way they are found. -/
theorem prefix_unique {P : N → Option (Src N V)} {pre pre' post post' : List (Src N V)} {s s' : Src N V}
    (h : pre ++ s :: post = pre' ++ s' :: post') (hf : Fresh P pre) (hf' : Fresh P pre') (hs : addAll P pre s.name ≠ none)
    (hs' : addAll P pre' s'.name ≠ none) : pre = pre' ∧ post.length = post'.length := by
  have aux : ∀ {pre pre' t : List (Src N V)} {s : Src N V}, pre' = pre ++ s :: t → Fresh P pre' → addAll P pre s.name ≠ none → False := by
    intro pre pre' t s e hf hs
    subst e
    refine hs (addAll_none.mpr ⟨hf.2 s (by simp), fun hc => ?_⟩)
    have := hf.1
    rw [List.map_append, List.map_cons, List.nodup_append] at this
    exact this.2.2 s.name hc s.name (by simp) rfl
  rcases List.append_eq_append_iff.mp h with ⟨t, h1, h2⟩ | ⟨t, h1, h2⟩
  · cases t with
    | nil =>
      rw [List.append_nil] at h1
      rw [List.nil_append] at h2
      cases h2
      exact ⟨h1.symm, rfl⟩
    | cons a t =>
      cases h2
      exact (aux h1 hf' hs).elim
  · cases t with
    | nil =>
      rw [List.append_nil] at h1
      rw [List.nil_append] at h2
      cases h2
      exact ⟨h1, rfl⟩
    | cons a t =>
      cases h2
      exact (aux h1 hf hs').elim

/-- A file in which a name comes twice is refused, but the sources before the second of them stay in the factory, so that a corrected file
which has one of them is refused as well; the other sources stay in memory when the factory is gone. -/
theorem C154_load_violates {pre post l : List (Src N V)} {s : Src N V} (hd : (pre.map Src.name).Nodup) (hs : s.name ∈ pre.map Src.name)
    (hl : ∃ t ∈ l, t.name ∈ pre.map Src.name) :
    (∃ st, run St.empty [.load (pre ++ s :: post), .load l] = .ok (st, [.threw, .threw])) ∧
    (∃ st, run St.empty [.load (pre ++ s :: post), .close] = .ok (st, [.threw, .done]) ∧ alive st = post.length + 1) := by
  have hf : Fresh (Spec.start : Spec.State N V).proto pre := ⟨hd, fun _ _ => rfl⟩
  have hbad : addAll (Spec.start : Spec.State N V).proto pre s.name ≠ none := fun hc => (addAll_none.mp hc).2 hs
  obtain ⟨o, s1, σ1, a1, a2, a3⟩ := step_sim (s := St.empty) (σ := Spec.start) rel_empty (.load (pre ++ s :: post)) trivial
  have h1 : o = .threw ∧ σ1 = { (Spec.start : Spec.State N V) with proto := addAll Spec.start.proto pre, lost := 0 + (post.length + 1) } := by
    rcases load_inv a2 with ⟨-, h, -⟩ | ⟨h1, pre', s', post', h2, h3, h4, h5⟩
    · have := h.1
      rw [List.map_append, List.map_cons, List.nodup_append] at this
      exact absurd rfl (this.2.2 s.name hs s.name (by simp))
    · obtain ⟨e1, e2⟩ := prefix_unique h2 hf h3 hbad h4
      subst e1
      rw [h5, e2]
      exact ⟨h1, rfl⟩
  obtain ⟨rfl, rfl⟩ := h1
  refine ⟨?_, ?_⟩
  · obtain ⟨o2, s2, σ2, b1, b2, b3⟩ := step_sim a3 (.load l) trivial
    have h2 : o2 = .threw := by
      rcases load_inv b2 with ⟨-, h, -⟩ | ⟨h, -⟩
      · obtain ⟨t, ht, ht'⟩ := hl
        exact absurd ht' (addAll_none.mp (h.2 t ht)).2
      · exact h
    subst h2
    exact ⟨s2, by simp only [run, a1, b1, Res.bind_ok]⟩
  · obtain ⟨o2, s2, σ2, b1, b2, b3⟩ := step_sim a3 .close trivial
    have hc := b3.count
    have hm : s2.protos = [] := by
      simp only [step, destroy] at b1
      obtain ⟨t, t1, t2⟩ := Res.bind_eq_ok.mp b1
      obtain ⟨t', t3, t4⟩ := Res.bind_eq_ok.mp t1
      cases t4
      cases t2
      rfl
    cases b2
    refine ⟨s2, by simp only [run, a1, b1, Res.bind_ok], ?_⟩
    unfold alive
    rw [hc, hm]
    simp [Spec.start]

/-- Of every part of a composite source that is read a copy stays in memory, which nobody owns. -/
theorem C154_composite_violates {l : List (Src N V)} (hd : (l.map Src.name).Nodup) :
    ∃ st, run St.empty [.nest l, .close] = .ok (st, [.parts l, .done]) ∧ alive st = l.length := by
  obtain ⟨o, s1, σ1, a1, a2, a3⟩ := step_sim (s := St.empty) (σ := Spec.start) rel_empty (.nest l) trivial
  obtain ⟨rfl, rfl⟩ := nest_inv a2 ⟨hd, fun _ _ => rfl⟩
  obtain ⟨o2, s2, σ2, b1, b2, b3⟩ := step_sim a3 .close trivial
  have hc := b3.count
  have hm : s2.protos = [] := by
    simp only [step, destroy] at b1
    obtain ⟨t, t1, t2⟩ := Res.bind_eq_ok.mp b1
    obtain ⟨t', t3, t4⟩ := Res.bind_eq_ok.mp t1
    cases t4
    cases t2
    rfl
  cases b2
  refine ⟨s2, by simp only [run, a1, b1, Res.bind_ok], ?_⟩
  unfold alive
  rw [hc, hm]
  simp [Spec.start]

/-! Cases. -/

/-- What is created is what was registered, also if the client changes its own source later; the names are in order. -/
example : (run (St.empty : St Nat Nat) [.make ⟨5, 7⟩, .add 5 0 true, .edit 0 ⟨5, 8⟩, .add 2 0 false, .create 5, .look 1, .create 2, .look 2,
    .create 9, .names, .close]).bind (fun r => .ok (r.2, alive r.1)) =
    .ok ([.done, .done, .done, .done, .done, .source ⟨5, 7⟩, .done, .source ⟨5, 8⟩, .threw, .names [2, 5], .done], 2) := by decide

example : Legal (⟨fun _ => none, [some ⟨5, 7⟩], 0⟩ : Spec.State Nat Nat) (.replace 0 true) := ⟨⟨5, 7⟩, rfl⟩

/-- A source replaced by a changed one. -/
example : (run (St.empty : St Nat Nat) [.make ⟨5, 7⟩, .add 5 0 true, .edit 0 ⟨5, 8⟩, .replace 0 true, .create 5, .look 1, .close]).bind
    (fun r => .ok (r.2, alive r.1)) = .ok ([.done, .done, .done, .done, .done, .source ⟨5, 8⟩, .done], 2) := by decide

example : (([⟨5, 7⟩, ⟨6, 1⟩] : List (Src Nat Nat)).map Src.name).Nodup ∧ (⟨5, 9⟩ : Src Nat Nat).name ∈
    ([⟨5, 7⟩, ⟨6, 1⟩] : List (Src Nat Nat)).map Src.name := by decide

end Verif.Factory
