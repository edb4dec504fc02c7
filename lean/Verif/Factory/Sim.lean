import Mathlib.Data.List.Induction
import Verif.Factory.Lemmas

set_option linter.unusedSectionVars false
set_option linter.unusedSimpArgs false
set_option linter.unusedVariables false

namespace Verif.Factory

open Verif.StdMap
open Spec (upd addAll Owns Legal Fresh Step)

variable {N V : Type} [LinearOrder N]

/-- The state of the program stands for the state of the specification. -/
def Sim (s : St N V) (σ : Spec.State N V) : Prop := Rel s.heap s.protos s.vars σ.proto σ.own σ.lost

theorem upd_upd (P : N → Option (Src N V)) (n : N) (a b : Option (Src N V)) : upd (upd P n a) n b = upd P n b := by
  funext m
  unfold upd
  split <;> rfl

theorem upd_same {P : N → Option (Src N V)} {n : N} {a : Option (Src N V)} (h : P n = a) : upd P n a = P := by
  funext m
  unfold upd
  split
  · rename_i e; rw [e, h]
  · rfl

theorem upd_at (P : N → Option (Src N V)) (n : N) (a : Option (Src N V)) : upd P n a n = a := if_pos rfl

theorem set_mid {α : Type} (w : List α) (a b : α) (r : List α) : (w ++ a :: r).set w.length b = (w ++ [b]) ++ r := by
  simp

theorem get_mid {α : Type} (w : List α) (a : α) (r : List α) : (w ++ a :: r)[w.length]? = some a := by simp

theorem get_mid' {α β : Type} (v : List α) (w : List β) (h : v.length = w.length) (a : α) (r : List α) :
    (v ++ a :: r)[w.length]? = some a := by rw [← h]; simp

theorem rel_makeAll {h : List (Option (Src N V))} {m : List (N × Nat)} {vs : List Nat} {P : N → Option (Src N V)}
    {W : List (Option (Src N V))} {lost : Nat} (R : Rel h m vs P W lost) (l : List (Src N V)) :
    Rel (h ++ l.map some) m (vs ++ (List.range l.length).map (h.length + ·)) P (W ++ l.map some) lost := by
  induction l using List.reverseRecOn with
  | nil => simpa using R
  | append_singleton l x ih =>
    have := ih.newVar x
    rw [List.map_append, List.length_append, List.length_singleton, List.range_succ, List.map_append]
    simp only [List.map_cons, List.map_nil]
    rw [← List.append_assoc, ← List.append_assoc, ← List.append_assoc]
    have e : (h ++ l.map some).length = h.length + l.length := by simp
    rw [e] at this
    exact this

theorem fresh_cons {P : N → Option (Src N V)} {x : Src N V} {l : List (Src N V)} (hx : P x.name = none)
    (h : Fresh (upd P x.name (some x)) l) : Fresh P (x :: l) := by
  have h2 : ∀ s ∈ l, s.name ≠ x.name ∧ P s.name = none := by
    intro s hs
    have := h.2 s hs
    unfold upd at this
    split at this
    · cases this
    · rename_i hne; exact ⟨hne, this⟩
  refine ⟨?_, fun s hs => ?_⟩
  · rw [List.map_cons, List.nodup_cons]
    refine ⟨fun hc => ?_, h.1⟩
    obtain ⟨s, hs, he⟩ := List.mem_map.mp hc
    exact (h2 s hs).1 he
  · rcases List.mem_cons.mp hs with rfl | hs
    · exact hx
    · exact (h2 s hs).2

theorem loadLoop_ok (os : List (Src N V)) : ∀ (ps : List Nat) (v : List Nat) (w : List (Option (Src N V))) (st : St N V)
    (P : N → Option (Src N V)) (lost : Nat), v.length = w.length → Rel st.heap st.protos (v ++ ps) P (w ++ os.map some) lost →
    (∃ st' W', loadLoop st ps = .ok (st', true) ∧ st'.vars = st.vars ∧ Fresh P os ∧
      Rel st'.heap st'.protos (v ++ ps) (addAll P os) (w ++ W') lost ∧ W'.countP Option.isSome = 0) ∨
    (∃ pre s post st' W', os = pre ++ s :: post ∧ loadLoop st ps = .ok (st', false) ∧ st'.vars = st.vars ∧ Fresh P pre ∧
      addAll P pre s.name ≠ none ∧ Rel st'.heap st'.protos (v ++ ps) (addAll P pre) (w ++ W') lost ∧
      W'.countP Option.isSome = post.length + 1) := by
  induction os with
  | nil =>
    intro ps v w st P lost hl R
    have := R.len
    simp [hl] at this
    subst this
    exact Or.inl ⟨st, [], rfl, rfl, ⟨List.nodup_nil, fun s hs => by cases hs⟩, R, rfl⟩
  | cons x os ih =>
    intro ps v w st P lost hl R
    cases ps with
    | nil =>
      have := R.len
      simp [hl] at this
    | cons p ps =>
      have hw : (w ++ (x :: os).map some)[w.length]? = some (some x) := get_mid w (some x) (os.map some)
      have hv : (v ++ p :: ps)[w.length]? = some p := get_mid' v w hl p ps
      obtain ⟨q, k1, k2⟩ := R.own w.length x hw
      rw [hv] at k1
      cases k1
      cases hf : find st.protos x.name with
      | some q =>
        refine Or.inr ⟨[], x, os, st, (x :: os).map some, rfl, ?_, rfl, ⟨List.nodup_nil, fun s hs => by cases hs⟩, ?_, R, ?_⟩
        · simp only [loadLoop, deref_ok k2, Res.bind_ok, addSource, hf]
          rfl
        · obtain ⟨z, -, e2⟩ := R.val x.name q hf
          intro hc
          have hc' : P x.name = none := hc
          rw [e2] at hc'
          cases hc'
        · simp
      | none =>
        have R1 := R.newProto hf x
        have hv1 : ((v ++ [p]) ++ ps)[w.length]? = some p := by rw [← hv]; simp
        have R2 := R1.freeVar hw hv
        have e : (w ++ (x :: os).map some).set w.length none = (w ++ [none]) ++ os.map some := set_mid w (some x) none (os.map some)
        rw [e] at R2
        have e2 : v ++ p :: ps = (v ++ [p]) ++ ps := by simp
        rw [e2] at R2
        have hk : (st.heap ++ [some x])[p]? = some (some x) := live_snoc k2
        have hrun : loadLoop st (p :: ps) =
            loadLoop ⟨(st.heap ++ [some x]).set p none, put st.protos x.name st.heap.length, st.vars⟩ ps := by
          conv_lhs => rw [loadLoop]
          simp only [deref_ok k2, Res.bind_ok, addSource, hf, if_true, free_ok hk]
        have hP : P x.name = none := R.absent _ hf
        rcases ih ps (v ++ [p]) (w ++ [none])
            ⟨(st.heap ++ [some x]).set p none, put st.protos x.name st.heap.length, st.vars⟩ (upd P x.name (some x)) lost
            (by simp [hl]) R2 with ⟨st', W', a1, a2, a3, a4, a5⟩ | ⟨pre, s, post, st', W', a0, a1, a2, a3, a4, a5, a6⟩
        · refine Or.inl ⟨st', none :: W', by rw [hrun]; exact a1, a2, fresh_cons hP a3, ?_, by simp [a5]⟩
          rw [e2]
          have e3 : w ++ none :: W' = (w ++ [none]) ++ W' := by simp
          rw [e3]
          exact a4
        · refine Or.inr ⟨x :: pre, s, post, st', none :: W', by rw [a0]; rfl, by rw [hrun]; exact a1, a2, fresh_cons hP a3, a4, ?_,
            by simp [a6]⟩
          rw [e2]
          have e3 : w ++ none :: W' = (w ++ [none]) ++ W' := by simp
          rw [e3]
          exact a5

theorem nestLoop_ok (os : List (Src N V)) : ∀ (ps : List Nat) (v : List Nat) (w : List (Option (Src N V))) (st : St N V)
    (comp : List (Src N V)) (P : N → Option (Src N V)) (lost : Nat), v.length = w.length → Fresh P comp →
    Rel st.heap st.protos (v ++ ps) P (w ++ os.map some) lost →
    (∃ st' W', nestLoop st comp ps = .ok (st', some (comp ++ os)) ∧ st'.vars = st.vars ∧ Fresh P (comp ++ os) ∧
      Rel st'.heap st'.protos (v ++ ps) P (w ++ W') (lost + os.length) ∧ W'.countP Option.isSome = 0) ∨
    (∃ pre s post st' W', os = pre ++ s :: post ∧ nestLoop st comp ps = .ok (st', none) ∧ st'.vars = st.vars ∧ Fresh P (comp ++ pre) ∧
      ((P s.name ≠ none ∧ Rel st'.heap st'.protos (v ++ ps) P (w ++ W') (lost + pre.length)) ∨
       (P s.name = none ∧ s.name ∈ (comp ++ pre).map Src.name ∧
        Rel st'.heap st'.protos (v ++ ps) (upd P s.name (some s)) (w ++ W') (lost + pre.length))) ∧
      W'.countP Option.isSome = post.length + 1) := by
  induction os with
  | nil =>
    intro ps v w st comp P lost hl hc R
    have := R.len
    simp [hl] at this
    subst this
    exact Or.inl ⟨st, [], by rw [List.append_nil]; rfl, rfl, by rw [List.append_nil]; exact hc, R, rfl⟩
  | cons x os ih =>
    intro ps v w st comp P lost hl hc R
    cases ps with
    | nil =>
      have := R.len
      simp [hl] at this
    | cons p ps =>
      have hw : (w ++ (x :: os).map some)[w.length]? = some (some x) := get_mid w (some x) (os.map some)
      have hv : (v ++ p :: ps)[w.length]? = some p := get_mid' v w hl p ps
      obtain ⟨q, k1, k2⟩ := R.own w.length x hw
      rw [hv] at k1
      cases k1
      cases hf : find st.protos x.name with
      | some q =>
        refine Or.inr ⟨[], x, os, st, (x :: os).map some, rfl, ?_, rfl, by rw [List.append_nil]; exact hc, Or.inl ⟨?_, R⟩, ?_⟩
        · simp only [nestLoop, deref_ok k2, Res.bind_ok, addSource, hf]
          rfl
        · obtain ⟨z, -, e2⟩ := R.val x.name q hf
          rw [e2]
          simp
        · simp
      | none =>
        have hP : P x.name = none := R.absent _ hf
        have R1 := R.newProto hf x
        have hfp : find (put st.protos x.name st.heap.length) x.name = some st.heap.length := by
          rw [find_put R.sorted, if_pos rfl]
        by_cases hd : x.name ∈ comp.map Src.name
        · refine Or.inr ⟨[], x, os, ⟨st.heap ++ [some x], put st.protos x.name st.heap.length, st.vars⟩, (x :: os).map some, rfl, ?_, rfl,
            by rw [List.append_nil]; exact hc, Or.inr ⟨hP, by rw [List.append_nil]; exact hd, R1⟩, by simp⟩
          conv_lhs => rw [nestLoop]
          simp only [deref_ok k2, Res.bind_ok, addSource, hf, if_true, hd]
        · have R2 := (R1.giveVar hfp (upd_at _ _ _)).strip R.len
          rw [upd_upd, upd_same hP] at R2
          have R3 := R2.freeVar hw hv
          have e : (w ++ (x :: os).map some).set w.length none = (w ++ [none]) ++ os.map some := set_mid w (some x) none (os.map some)
          rw [e] at R3
          have e2 : v ++ p :: ps = (v ++ [p]) ++ ps := by simp
          rw [e2] at R3
          have e3 : ([some x] : List (Option (Src N V))).countP Option.isSome = 1 := rfl
          rw [e3] at R3
          have hk : (st.heap ++ [some x])[p]? = some (some x) := live_snoc k2
          have hrun : nestLoop st comp (p :: ps) =
              nestLoop ⟨(st.heap ++ [some x]).set p none, erase (put st.protos x.name st.heap.length) x.name, st.vars⟩ (comp ++ [x]) ps := by
            conv_lhs => rw [nestLoop]
            simp only [deref_ok k2, Res.bind_ok, addSource, hf, if_true, hd, if_false, releaseSource, hfp, free_ok hk]
          have hc' : Fresh P (comp ++ [x]) := by
            refine ⟨?_, fun s hs => ?_⟩
            · rw [List.map_append, List.nodup_append]
              refine ⟨hc.1, by simp, fun a ha b hb => ?_⟩
              simp at hb
              subst hb
              intro e
              subst e
              exact hd ha
            · rcases List.mem_append.mp hs with hs | hs
              · exact hc.2 s hs
              · rw [List.mem_singleton] at hs; subst hs; exact hP
          rcases ih ps (v ++ [p]) (w ++ [none])
              ⟨(st.heap ++ [some x]).set p none, erase (put st.protos x.name st.heap.length) x.name, st.vars⟩ (comp ++ [x]) P (lost + 1)
              (by simp [hl]) hc' R3 with ⟨st', W', a1, a2, a3, a4, a5⟩ | ⟨pre, s, post, st', W', a0, a1, a2, a3, a4, a5⟩
          · have e4 : comp ++ [x] ++ os = comp ++ x :: os := by simp
            have e5 : w ++ none :: W' = (w ++ [none]) ++ W' := by simp
            have e6 : lost + (x :: os).length = lost + 1 + os.length := by rw [List.length_cons]; omega
            rw [e4] at a1 a3
            refine Or.inl ⟨st', none :: W', by rw [hrun]; exact a1, a2, a3, ?_, by simp [a5]⟩
            rw [e2, e5, e6]
            exact a4
          · have e4 : comp ++ [x] ++ pre = comp ++ x :: pre := by simp
            have e5 : w ++ none :: W' = (w ++ [none]) ++ W' := by simp
            have e6 : lost + (x :: pre).length = lost + 1 + pre.length := by rw [List.length_cons]; omega
            rw [e4] at a3 a4
            refine Or.inr ⟨x :: pre, s, post, st', none :: W', by rw [a0]; rfl, by rw [hrun]; exact a1, a2, a3, ?_, by simp [a5]⟩
            rw [e2, e5, e6]
            exact a4

theorem freeAll_ok {vs : List Nat} {W : List (Option (Src N V))} {lost : Nat} (m : List (N × Nat)) :
    ∀ (h : List (Option (Src N V))) (P : N → Option (Src N V)), Rel h m vs P W lost →
      ∃ h', freeAll h m = .ok h' ∧ Rel h' [] vs (fun _ => none) W lost := by
  induction m with
  | nil =>
    intro h P R
    refine ⟨h, rfl, ?_⟩
    have : P = fun _ => none := by funext n; exact R.absent n rfl
    rw [← this]
    exact R
  | cons y m ih =>
    intro h P R
    obtain ⟨k, p⟩ := y
    have hf : find ((k, p) :: m) k = some p := by simp [find]
    obtain ⟨x, hx, -⟩ := R.val k p hf
    have R1 := R.freeProto hf
    have e : erase ((k, p) :: m) k = m := by simp [erase]
    rw [e] at R1
    obtain ⟨h', h1, h2⟩ := ih _ _ R1
    refine ⟨h', ?_, h2⟩
    simp only [freeAll, free_ok hx, Res.bind_ok]
    exact h1

theorem vget_of {α : Type} {l : List α} {i : Nat} {a : α} (h : l[i]? = some a) : vget l i = .ok a := by
  simp only [vget, h]

/-- One call of a client that uses only what it owns. -/
theorem step_sim {s : St N V} {σ : Spec.State N V} (R : Sim s σ) (op : Op N V) (hl : Legal σ op) :
    ∃ o s' σ', step s op = .ok (s', o) ∧ Step σ op o σ' ∧ Sim s' σ' := by
  unfold Sim at R
  cases op with
  | make x => exact ⟨_, _, _, rfl, .make σ x, R.newVar x⟩
  | look i =>
    obtain ⟨x, hx⟩ := hl
    obtain ⟨p, k1, k2⟩ := R.own i x hx
    exact ⟨.source x, s, σ, by simp only [step, vget_of k1, Res.bind_ok, deref_ok k2], .look σ i x hx, R⟩
  | edit i t =>
    obtain ⟨x, hx⟩ := hl
    obtain ⟨p, k1, k2⟩ := R.own i x hx
    exact ⟨.done, { s with heap := s.heap.set p (some t) }, _, by simp only [step, vget_of k1, Res.bind_ok, deref_ok k2], .edit σ i x t hx,
      R.editVar hx k1 t⟩
  | drop i =>
    obtain ⟨x, hx⟩ := hl
    obtain ⟨p, k1, k2⟩ := R.own i x hx
    exact ⟨.done, { s with heap := s.heap.set p none }, _, by simp only [step, vget_of k1, Res.bind_ok, free_ok k2], .drop σ i x hx,
      R.freeVar hx k1⟩
  | create n =>
    cases hn : σ.proto n with
    | none => exact ⟨.threw, s, σ, by simp only [step, create, R.find_none hn, Res.bind_ok], .createNo σ n hn, R⟩
    | some x =>
      obtain ⟨p, k1, k2⟩ := R.find_of_proto hn
      exact ⟨.done, ⟨s.heap ++ [some x], s.protos, s.vars ++ [s.heap.length]⟩, _,
        by simp only [step, create, k1, Res.bind_ok, deref_ok k2, keep], .create σ n x hn, R.newVar x⟩
  | release n =>
    cases hn : σ.proto n with
    | none => exact ⟨.threw, s, σ, by simp only [step, releaseSource, R.find_none hn], .releaseNo σ n hn, R⟩
    | some x =>
      obtain ⟨p, k1, k2⟩ := R.find_of_proto hn
      exact ⟨.done, ⟨s.heap, erase s.protos n, s.vars ++ [p]⟩, _, by simp only [step, releaseSource, k1, keep], .release σ n x hn,
        R.giveVar k1 hn⟩
  | add n i c =>
    obtain ⟨x, hx⟩ := hl
    obtain ⟨p, k1, k2⟩ := R.own i x hx
    cases hn : σ.proto n with
    | some y =>
      obtain ⟨q, e1, e2⟩ := R.find_of_proto hn
      exact ⟨.threw, s, σ, by simp only [step, vget_of k1, Res.bind_ok, addSource, e1]; rfl, .addNo σ n i c x hx (by rw [hn]; simp), R⟩
    | none =>
      have hf := R.find_none hn
      cases c with
      | true =>
        exact ⟨.done, ⟨s.heap ++ [some x], put s.protos n s.heap.length, s.vars⟩, _,
          by simp only [step, vget_of k1, Res.bind_ok, addSource, hf, if_true, deref_ok k2]; rfl, .add σ n i true x hx hn,
          R.newProto hf x⟩
      | false =>
        exact ⟨.done, ⟨s.heap, put s.protos n p, s.vars⟩, _,
          by simp only [step, vget_of k1, Res.bind_ok, addSource, hf, Bool.false_eq_true, if_false]; rfl, .add σ n i false x hx hn,
          R.takeVar hf hx k1⟩
  | replace i c =>
    obtain ⟨x, hx⟩ := hl
    obtain ⟨p, k1, k2⟩ := R.own i x hx
    cases hf : find s.protos x.name with
    | none =>
      cases c with
      | true =>
        exact ⟨.done, ⟨s.heap ++ [some x], put s.protos x.name s.heap.length, s.vars⟩, _,
          by simp only [step, vget_of k1, Res.bind_ok, replaceSource, deref_ok k2, addSource, hf, if_true]; rfl,
          .replace σ i true x hx, R.newProto hf x⟩
      | false =>
        exact ⟨.done, ⟨s.heap, put s.protos x.name p, s.vars⟩, _,
          by simp only [step, vget_of k1, Res.bind_ok, replaceSource, deref_ok k2, addSource, hf, Bool.false_eq_true, if_false]; rfl,
          .replace σ i false x hx, R.takeVar hf hx k1⟩
    | some q =>
      have hqp : p ≠ q := fun e => R.i3 x.name i p x (e ▸ hf) hx k1
      obtain ⟨y, e1, e2⟩ := R.val x.name q hf
      have R1 := R.freeProto hf
      have k3 : (s.heap.set q none)[p]? = some (some x) := live_set hqp k2
      have hf' : find (erase s.protos x.name) x.name = none := by rw [find_erase R.sorted, if_pos rfl]
      cases c with
      | true =>
        have R2 := R1.newProto hf' x
        rw [upd_upd] at R2
        exact ⟨.done, ⟨s.heap.set q none ++ [some x], put (erase s.protos x.name) x.name (s.heap.set q none).length, s.vars⟩, _,
          by simp only [step, vget_of k1, Res.bind_ok, replaceSource, deref_ok k2, hf, free_ok e1, deref_ok k3, addSource, hf', if_true]; rfl,
          .replace σ i true x hx, R2⟩
      | false =>
        have R2 := R1.takeVar hf' hx k1
        rw [upd_upd] at R2
        exact ⟨.done, ⟨s.heap.set q none, put (erase s.protos x.name) x.name p, s.vars⟩, _,
          by simp only [step, vget_of k1, Res.bind_ok, replaceSource, deref_ok k2, hf, free_ok e1, deref_ok k3, addSource, hf',
            Bool.false_eq_true, if_false]; rfl,
          .replace σ i false x hx, R2⟩
  | names =>
    refine ⟨.names (keys s.protos), s, σ, rfl, .names σ _ R.sorted (fun n => ?_), R⟩
    rw [mem_keys_iff]
    constructor
    · rintro ⟨p, hp⟩
      obtain ⟨x, -, hx⟩ := R.val n p hp
      rw [hx]; simp
    · intro hne
      cases hn : σ.proto n with
      | none => exact absurd hn hne
      | some x => exact ⟨_, (R.find_of_proto hn).choose_spec.1⟩
  | load l =>
    have R1 := rel_makeAll R l
    rcases loadLoop_ok l _ s.vars σ.own (makeAll s l).1 σ.proto σ.lost R.len R1 with
      ⟨s', W', a1, a2, a3, a4, a5⟩ | ⟨pre, x, post, s', W', a0, a1, a2, a3, a4, a5, a6⟩
    · refine ⟨.done, s', _, by simp only [step, makeAll] at a1 ⊢; rw [a1]; rfl, .load σ l a3, ?_⟩
      have R2 := a4.strip R.len
      rw [a5] at R2
      unfold Sim
      rw [a2]
      exact R2
    · refine ⟨.threw, s', { σ with proto := addAll σ.proto pre, lost := σ.lost + (post.length + 1) },
        by simp only [step, makeAll] at a1 ⊢; rw [a1]; rfl, by rw [a0]; exact .loadNo σ pre x post a3 a4, ?_⟩
      have R2 := a5.strip R.len
      rw [a6] at R2
      unfold Sim
      rw [a2]
      exact R2
  | nest l =>
    have R1 := rel_makeAll R l
    rcases nestLoop_ok l _ s.vars σ.own (makeAll s l).1 [] σ.proto σ.lost R.len ⟨List.nodup_nil, fun s hs => by cases hs⟩ R1 with
      ⟨s', W', a1, a2, a3, a4, a5⟩ | ⟨pre, x, post, s', W', a0, a1, a2, a3, a4, a6⟩
    · refine ⟨.parts l, s', _, by simp only [step, makeAll] at a1 ⊢; rw [a1]; rfl, .nest σ l a3, ?_⟩
      have R2 := a4.strip R.len
      rw [a5] at R2
      unfold Sim
      rw [a2]
      exact R2
    · rcases a4 with ⟨b1, b2⟩ | ⟨b1, b2, b3⟩
      · refine ⟨.threw, s', { σ with lost := σ.lost + (pre.length + (post.length + 1)) },
          by simp only [step, makeAll] at a1 ⊢; rw [a1]; rfl, by rw [a0]; exact .nestNo σ pre x post a3 b1, ?_⟩
        have R2 := b2.strip R.len
        rw [a6, Nat.add_assoc] at R2
        unfold Sim
        rw [a2]
        exact R2
      · refine ⟨.threw, s', { σ with proto := upd σ.proto x.name (some x), lost := σ.lost + (pre.length + (post.length + 1)) },
          by simp only [step, makeAll] at a1 ⊢; rw [a1]; rfl, by rw [a0]; exact .nestDup σ pre x post a3 b1 b2, ?_⟩
        have R2 := b3.strip R.len
        rw [a6, Nat.add_assoc] at R2
        unfold Sim
        rw [a2]
        exact R2
  | close =>
    obtain ⟨h', h1, h2⟩ := freeAll_ok s.protos s.heap σ.proto R
    exact ⟨.done, ⟨h', [], s.vars⟩, _, by simp only [step, destroy, h1, Res.bind_ok], .close σ, h2⟩

theorem run_snoc {s s' s'' : St N V} {ops : List (Op N V)} {os : List (Out N V)} {op : Op N V} {o : Out N V} (h : run s ops = .ok (s', os))
    (h' : step s' op = .ok (s'', o)) : run s (ops ++ [op]) = .ok (s'', os ++ [o]) := by
  induction ops generalizing s os with
  | nil =>
    cases h
    simp only [run, List.nil_append, h', Res.bind_ok]
  | cons a ops ih =>
    simp only [run, Res.bind_eq_ok, List.cons_append] at h ⊢
    obtain ⟨r, h1, t, h2, h3⟩ := h
    cases h3
    exact ⟨r, h1, _, ih h2, rfl⟩

end Verif.Factory
