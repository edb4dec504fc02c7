import Verif.TestSrc.Model
import Verif.TestSrc.Spec

set_option linter.unusedSimpArgs false
set_option linter.unusedVariables false

/-!
# Lemmas about the test source
-/

namespace Verif.TestSrc

open Spec (Values)

variable {N D : Type} [DecidableEq N]

theorem deref_some {h : List (Option D)} {p : ℕ} {d : D} :
    deref h p = some d ↔ h[p]? = some (some d) := by
  unfold deref
  cases e : h[p]? with
  | none => simp
  | some y => cases y <;> simp

theorem free_ok {h : List (Option D)} {p : ℕ} {d : D} (e : h[p]? = some (some d)) :
    free h (some p) = some (h.set p none) := by
  unfold free; simp only [e]

theorem free_dead {h : List (Option D)} {p : ℕ} (e : h[p]? = some none) :
    free h (some p) = none := by
  unfold free; simp only [e]

theorem deref_dead {h : List (Option D)} {p : ℕ} (e : h[p]? = some none) :
    deref h p = none := by
  unfold deref; simp [e]

theorem lt_of_some {h : List (Option D)} {p : ℕ} {d : D} (e : h[p]? = some (some d)) :
    p < h.length := by
  by_contra hc
  rw [List.getElem?_eq_none (by omega)] at e
  cases e

theorem append_keep {h : List (Option D)} {p : ℕ} {d x : D} (e : h[p]? = some (some d)) :
    (h ++ [some x])[p]? = some (some d) := by
  rw [List.getElem?_append_left (lt_of_some e)]; exact e

theorem append_new (h : List (Option D)) (x : D) :
    (h ++ [some x])[h.length]? = some (some x) := by
  rw [List.getElem?_append_right (Nat.le_refl _)]; simp

/-- The program shows what the client expects. -/
structure R (s : St N D) (v : Values N D) : Prop where
  name : s.name = v.name
  own : s.owned = v.own
  mod : ∀ (n : N) (p : ℕ), s.model n = some p →
    ∃ d, s.heap[p]? = some (some d) ∧ v.model n = some d
  modn : ∀ n : N, s.model n = none → v.model n = none
  inj : ∀ (n m : N) (p : ℕ), s.model n = some p → s.model m = some p → n = m
  test : ∀ p : ℕ, s.test = some p → ∃ d, s.heap[p]? = some (some d) ∧ v.test = some d
  testn : s.test = none → v.test = none
  sep : s.owned = true → ∀ (p : ℕ) (n : N), s.test = some p → s.model n ≠ some p
  named : s.owned = false → ∀ (p : ℕ) (n : N), s.test = some p → s.model n = some p → n = s.name

theorem R.start (n : N) : R (init n : St N D) (Spec.init n) where
  name := rfl
  own := rfl
  mod := by intro n p h; cases h
  modn := by intro n h; rfl
  inj := by intro n m p h; cases h
  test := by intro p h; cases h
  testn := by intro h; rfl
  sep := by intro h; cases h
  named := by intro _ p n h; cases h

theorem R.absent {s : St N D} {v : Values N D} (h : R s v) {n : N} (e : v.model n = none) :
    s.model n = none := by
  cases hm : s.model n with
  | none => rfl
  | some p =>
    obtain ⟨d, -, hd⟩ := h.mod n p hm
    rw [e] at hd; cases hd

theorem R.present {s : St N D} {v : Values N D} (h : R s v) {n : N} {d : D}
    (e : v.model n = some d) : ∃ p, s.model n = some p ∧ s.heap[p]? = some (some d) := by
  cases hm : s.model n with
  | none => rw [h.modn n hm] at e; cases e
  | some p =>
    obtain ⟨d', hd', hd⟩ := h.mod n p hm
    rw [e] at hd; cases hd
    exact ⟨p, rfl, hd'⟩

theorem R.chosen {s : St N D} {v : Values N D} (h : R s v) {d : D}
    (e : v.test = some d) : ∃ p, s.test = some p ∧ s.heap[p]? = some (some d) := by
  cases hm : s.test with
  | none => rw [h.testn hm] at e; cases e
  | some p =>
    obtain ⟨d', hd', hd⟩ := h.test p hm
    rw [e] at hd; cases hd
    exact ⟨p, rfl, hd'⟩

theorem dropFromModel_absent {s : St N D} {n : N} (e : s.model n = none) :
    dropFromModel s n = some s := by
  unfold dropFromModel; simp only [e]

/-- The store with the scanner's own test source freed still has all sources of the model. -/
theorem R.freeOwned {s : St N D} {v : Values N D} (h : R s v) :
    ∃ hp, freeOwned s = some { s with heap := hp } ∧ hp.length = s.heap.length ∧
      ∀ (n : N) (p : ℕ) (d : D), s.model n = some p → s.heap[p]? = some (some d) →
        hp[p]? = some (some d) := by
  unfold TestSrc.freeOwned
  cases ho : s.owned with
  | false =>
    refine ⟨s.heap, ?_, rfl, fun n p d _ e => e⟩
    simp only [Bool.false_eq_true, if_false]
    rw [← ho]
  | true =>
    simp only [if_true]
    cases ht : s.test with
    | none =>
      refine ⟨s.heap, ?_, rfl, fun n p d _ e => e⟩
      simp [free, ← ho, ← ht]
    | some p =>
      obtain ⟨d, hd, -⟩ := h.test p ht
      refine ⟨s.heap.set p none, ?_, by simp, ?_⟩
      · rw [free_ok hd]; simp [← ho, ← ht]
      · intro n q d' hn hq
        rw [List.getElem?_set_ne]
        · exact hq
        · intro he; subst he; exact h.sep ho p n ht hn

/-- A new object as the test source. -/
theorem R.newTest {s : St N D} {v : Values N D} (h : R s v) (hp : List (Option D))
    (hl : hp.length = s.heap.length)
    (keep : ∀ (n : N) (p : ℕ) (d : D), s.model n = some p → s.heap[p]? = some (some d) →
        hp[p]? = some (some d)) (n : N) (d : D) (o : Bool) :
    R (newTest { s with heap := hp } n d o) ⟨v.model, some d, n, o⟩ where
  name := rfl
  own := rfl
  mod := by
    intro m p hm
    obtain ⟨d', hd', hv⟩ := h.mod m p hm
    exact ⟨d', append_keep (keep m p d' hm hd'), hv⟩
  modn := h.modn
  inj := h.inj
  test := by
    intro p hpq
    simp only [TestSrc.newTest, Option.some.injEq] at hpq
    subst hpq
    exact ⟨d, append_new hp d, rfl⟩
  testn := by intro hc; cases hc
  sep := by
    intro _ p m hpq hm
    simp only [TestSrc.newTest, Option.some.injEq] at hpq
    subst hpq
    obtain ⟨d', hd', hv⟩ := h.mod m _ hm
    have := lt_of_some hd'
    omega
  named := by
    intro _ p m hpq hm
    simp only [TestSrc.newTest, Option.some.injEq] at hpq
    subst hpq
    obtain ⟨d', hd', hv⟩ := h.mod m _ hm
    have := lt_of_some hd'
    omega

theorem step_R {s : St N D} {v : Values N D} {op : Op N D} (h : R s v) (hc : Spec.Calm v op) :
    ∃ s', step s op = some (s', (Spec.step v op).2) ∧ R s' (Spec.step v op).1 := by
  cases op with
  | add n d =>
    cases hm : s.model n with
    | some p =>
      obtain ⟨d', hd', hv⟩ := h.mod n p hm
      refine ⟨s, ?_, ?_⟩
      · simp only [step, Spec.step, hm, hv]
      · simp only [Spec.step, hv]; exact h
    | none =>
      have hv := h.modn n hm
      refine ⟨⟨s.heap ++ [some d], Function.update s.model n (some s.heap.length), s.test,
        s.owned, s.name⟩, ?_, ?_⟩
      · simp only [step, Spec.step, hm, hv]
      · simp only [Spec.step, hv]
        constructor
        · exact h.name
        · exact h.own
        · intro m p hp
          simp only [Function.update_apply] at hp ⊢
          by_cases hmn : m = n
          · rw [if_pos hmn] at hp ⊢
            simp only [Option.some.injEq] at hp
            subst hp
            exact ⟨d, append_new _ _, rfl⟩
          · rw [if_neg hmn] at hp ⊢
            obtain ⟨d', hd', hv'⟩ := h.mod m p hp
            exact ⟨d', append_keep hd', hv'⟩
        · intro m hp
          simp only [Function.update_apply] at hp ⊢
          by_cases hmn : m = n
          · rw [if_pos hmn] at hp; cases hp
          · rw [if_neg hmn] at hp ⊢; exact h.modn m hp
        · intro a b p ha hb
          simp only [Function.update_apply] at ha hb
          by_cases han : a = n <;> by_cases hbn : b = n
          · rw [han, hbn]
          · rw [if_pos han] at ha; rw [if_neg hbn] at hb
            simp only [Option.some.injEq] at ha
            obtain ⟨d', hd', -⟩ := h.mod b p hb
            have := lt_of_some hd'; omega
          · rw [if_neg han] at ha; rw [if_pos hbn] at hb
            simp only [Option.some.injEq] at hb
            obtain ⟨d', hd', -⟩ := h.mod a p ha
            have := lt_of_some hd'; omega
          · rw [if_neg han] at ha; rw [if_neg hbn] at hb
            exact h.inj a b p ha hb
        · intro p hp
          obtain ⟨d', hd', hv'⟩ := h.test p hp
          exact ⟨d', append_keep hd', hv'⟩
        · exact h.testn
        · intro ho p m hp hmp
          simp only [Function.update_apply] at hmp
          obtain ⟨d', hd', -⟩ := h.test p hp
          by_cases hmn : m = n
          · rw [if_pos hmn] at hmp
            simp only [Option.some.injEq] at hmp
            have := lt_of_some hd'; omega
          · rw [if_neg hmn] at hmp
            exact h.sep ho p m hp hmp
        · intro ho p m hp hmp
          simp only [Function.update_apply] at hmp
          obtain ⟨d', hd', -⟩ := h.test p hp
          by_cases hmn : m = n
          · rw [if_pos hmn] at hmp
            simp only [Option.some.injEq] at hmp
            have := lt_of_some hd'; omega
          · rw [if_neg hmn] at hmp
            exact h.named ho p m hp hmp
  | remove n =>
    cases hm : s.model n with
    | none =>
      have hv := h.modn n hm
      refine ⟨s, ?_, ?_⟩
      · simp only [step, Spec.step, hm, hv]
      · simp only [Spec.step, hv]; exact h
    | some p =>
      obtain ⟨d, hd, hv⟩ := h.mod n p hm
      refine ⟨{ s with
        heap := s.heap.set p none, model := Function.update s.model n none }, ?_, ?_⟩
      · simp only [step, Spec.step, hm, hv, dropFromModel, free_ok hd, Option.map_some]
      · simp only [Spec.step, hv]
        have htest : ∀ q, s.test = some q → q ≠ p := by
          intro q hq he
          subst he
          rcases hc with hc | hc
          · cases ho : s.owned with
            | true => exact h.sep ho q n hq hm
            | false => exact hc ((h.named ho q n hq hm).trans h.name)
          · rw [← h.own] at hc
            exact h.sep hc q n hq hm
        constructor
        · exact h.name
        · exact h.own
        · intro m q hq
          simp only [Function.update_apply] at hq ⊢
          by_cases hmn : m = n
          · rw [if_pos hmn] at hq; cases hq
          · rw [if_neg hmn] at hq ⊢
            obtain ⟨d', hd', hv'⟩ := h.mod m q hq
            refine ⟨d', ?_, hv'⟩
            rw [List.getElem?_set_ne]
            · exact hd'
            · intro he; subst he; exact hmn (h.inj m n p hq hm)
        · intro m hq
          simp only [Function.update_apply] at hq ⊢
          by_cases hmn : m = n
          · rw [if_pos hmn]
          · rw [if_neg hmn] at hq ⊢; exact h.modn m hq
        · intro a b q ha hb
          simp only [Function.update_apply] at ha hb
          by_cases han : a = n
          · rw [if_pos han] at ha; cases ha
          · by_cases hbn : b = n
            · rw [if_pos hbn] at hb; cases hb
            · rw [if_neg han] at ha; rw [if_neg hbn] at hb
              exact h.inj a b q ha hb
        · intro q hq
          obtain ⟨d', hd', hv'⟩ := h.test q hq
          refine ⟨d', ?_, hv'⟩
          rw [List.getElem?_set_ne (fun he => htest q hq he.symm)]
          exact hd'
        · exact h.testn
        · intro ho q m hq hmq
          simp only [Function.update_apply] at hmq
          by_cases hmn : m = n
          · rw [if_pos hmn] at hmq; cases hmq
          · rw [if_neg hmn] at hmq; exact h.sep ho q m hq hmq
        · intro ho q m hq hmq
          simp only [Function.update_apply] at hmq
          by_cases hmn : m = n
          · rw [if_pos hmn] at hmq; cases hmq
          · rw [if_neg hmn] at hmq; exact h.named ho q m hq hmq
  | ask n =>
    cases hm : s.model n with
    | none =>
      have hv := h.modn n hm
      refine ⟨s, ?_, ?_⟩
      · simp only [step, Spec.step, hm, hv]
      · simp only [Spec.step, hv]; exact h
    | some p =>
      obtain ⟨d, hd, hv⟩ := h.mod n p hm
      refine ⟨s, ?_, ?_⟩
      · simp only [step, Spec.step, hm, hv, deref_some.2 hd, Option.map_some]
      · simp only [Spec.step, hv]; exact h
  | powerlaw d =>
    have hd : s.model s.name = none := h.absent (by rw [h.name]; exact hc)
    obtain ⟨hp, e, hl, keep⟩ := h.freeOwned
    refine ⟨newTest { s with heap := hp } s.name d true, ?_, ?_⟩
    · simp only [step, dropFromModel_absent hd, Option.bind_some, e, Option.map_some, Spec.step]
    · have := h.newTest hp hl keep s.name d true
      simp only [Spec.step]
      rw [h.name] at this ⊢
      exact this
  | point d =>
    refine ⟨newTest s s.name d true, rfl, ?_⟩
    have := h.newTest s.heap rfl (fun _ _ _ _ e => e) s.name d true
    simp only [Spec.step]
    rw [h.name] at this ⊢
    exact this
  | byName n =>
    obtain ⟨hn, hnn, hin⟩ := hc
    have hd : s.model s.name = none := h.absent (by rw [h.name]; exact hnn)
    obtain ⟨hp, e, hl, keep⟩ := h.freeOwned
    cases hv : v.model n with
    | none => exact (hin hv).elim
    | some d =>
      obtain ⟨p, hm, hpd⟩ := h.present hv
      refine ⟨⟨hp, s.model, some p, false, n⟩, ?_, ?_⟩
      · have hne : ¬ s.name = n := by rw [h.name]; exact fun he => hn he.symm
        simp only [step, Spec.step, hv]
        rw [if_neg hne]
        simp only [dropFromModel_absent hd, Option.bind_some, e, Option.map_some, hm]
      · simp only [Spec.step, hv]
        constructor
        · rfl
        · rfl
        · intro m q hq
          obtain ⟨d', hd', hv'⟩ := h.mod m q hq
          exact ⟨d', keep m q d' hq hd', hv'⟩
        · exact h.modn
        · exact h.inj
        · intro q hq
          simp only [Option.some.injEq] at hq
          subst hq
          exact ⟨d, keep n p d hm hpd, rfl⟩
        · intro hq; cases hq
        · intro ho; cases ho
        · intro _ q m hq hmq
          simp only [Option.some.injEq] at hq
          subst hq
          exact h.inj m n p hmq hm
  | give n d o =>
    by_cases hn : s.name = n
    · refine ⟨newTest s n d o, ?_, ?_⟩
      · simp only [step, Spec.step]
        rw [if_pos hn]
        rfl
      · exact h.newTest s.heap rfl (fun _ _ _ _ e => e) n d o
    · have hd : s.model s.name = none := by
        refine h.absent ?_
        rw [h.name]
        refine hc (fun he => hn ?_)
        rw [h.name]; exact he.symm
      obtain ⟨hp, e, hl, keep⟩ := h.freeOwned
      refine ⟨newTest { s with heap := hp } n d o, ?_, h.newTest hp hl keep n d o⟩
      simp only [step, Spec.step]
      rw [if_neg hn]
      simp only [dropFromModel_absent hd, Option.bind_some, e, Option.map_some]
  | use =>
    cases hm : s.test with
    | none =>
      have hv := h.testn hm
      refine ⟨s, ?_, ?_⟩
      · simp only [step, Spec.step, hm, hv]
      · simp only [Spec.step, hv]; exact h
    | some p =>
      obtain ⟨d, hd, hv⟩ := h.test p hm
      refine ⟨s, ?_, ?_⟩
      · simp only [step, Spec.step, hm, hv, deref_some.2 hd, Option.map_some]
      · simp only [Spec.step, hv]; exact h

theorem run_R (ops : List (Op N D)) {s : St N D} {v : Values N D} (h : R s v)
    (hc : Spec.CalmRun v ops) :
    ∃ s', run s ops = some (s', (Spec.run v ops).2) ∧ R s' (Spec.run v ops).1 := by
  induction ops generalizing s v with
  | nil => exact ⟨s, rfl, h⟩
  | cons op ops ih =>
    obtain ⟨s1, e1, r1⟩ := step_R h hc.1
    obtain ⟨s2, e2, r2⟩ := ih r1 hc.2
    refine ⟨s2, ?_, r2⟩
    simp only [run, e1, Option.bind_some, e2, Option.map_some, Spec.run]

theorem run_append (a b : List (Op N D)) {s s' : St N D} {xs : List (Obs D)}
    (h : run s a = some (s', xs)) :
    run s (a ++ b) = (run s' b).map (fun r => (r.1, xs ++ r.2)) := by
  induction a generalizing s xs with
  | nil =>
    simp only [run, Option.some.injEq, Prod.mk.injEq] at h
    obtain ⟨rfl, rfl⟩ := h
    simp
  | cons op a ih =>
    simp only [run, Option.bind_eq_some_iff, Option.map_eq_some_iff, Prod.mk.injEq] at h
    obtain ⟨r, h1, r', h2, rfl, rfl⟩ := h
    simp only [List.cons_append, run, h1, Option.bind_some, ih h2, Option.map_map]
    rfl

theorem spec_run_append (a b : List (Op N D)) (v : Values N D) :
    (Spec.run v (a ++ b)).1 = (Spec.run (Spec.run v a).1 b).1 ∧
    (Spec.run v (a ++ b)).2 = (Spec.run v a).2 ++ (Spec.run (Spec.run v a).1 b).2 := by
  induction a generalizing v with
  | nil => exact ⟨rfl, rfl⟩
  | cons op a ih =>
    obtain ⟨h1, h2⟩ := ih (Spec.step v op).1
    constructor
    · simp only [List.cons_append, Spec.run, h1]
    · simp only [List.cons_append, Spec.run, h2]

end Verif.TestSrc

namespace Verif.TestSrc

variable {N D : Type} [DecidableEq N]

/-- Replacing the test source: the source of its name leaves the model, the scanner's own is
destroyed, everything else is kept. -/
theorem R.replace {s : St N D} {v : Spec.Values N D} (h : R s v) :
    ∃ hp, (dropFromModel s s.name).bind TestSrc.freeOwned =
        some { s with heap := hp, model := Function.update s.model s.name none } ∧
      hp.length = s.heap.length ∧
      (∀ (n : N) (p : ℕ) (d : D), n ≠ s.name → s.model n = some p → s.heap[p]? = some (some d) →
        hp[p]? = some (some d)) ∧
      (s.owned = true → ∀ p : ℕ, s.test = some p → hp[p]? = some none) := by
  cases hm : s.model s.name with
  | none =>
    have hu : Function.update s.model s.name none = s.model := by
      funext m
      by_cases e : m = s.name
      · rw [e, Function.update_self, hm]
      · rw [Function.update_of_ne e]
    unfold TestSrc.freeOwned
    cases ho : s.owned with
    | false =>
      refine ⟨s.heap, ?_, rfl, fun n p d _ _ e => e, fun e => by cases e⟩
      rw [dropFromModel_absent hm, hu]
      cases s; simp_all
    | true =>
      cases ht : s.test with
      | none =>
        refine ⟨s.heap, ?_, rfl, fun n p d _ _ e => e, fun _ p e => by cases e⟩
        rw [dropFromModel_absent hm, hu]
        cases s; simp_all [free]
      | some t =>
        obtain ⟨dt, hdt, -⟩ := h.test t ht
        refine ⟨s.heap.set t none, ?_, by simp, ?_, ?_⟩
        · rw [dropFromModel_absent hm, hu]
          simp [ho, ht, free_ok hdt]
        · intro n q d' _ hn hq
          rw [List.getElem?_set_ne]
          · exact hq
          · intro he; subst he; exact h.sep ho t n ht hn
        · intro _ p hp
          cases hp
          rw [List.getElem?_set_self (lt_of_some hdt)]
  | some p =>
    obtain ⟨d, hd, hv⟩ := h.mod s.name p hm
    have hdrop : dropFromModel s s.name = some { s with
        heap := s.heap.set p none, model := Function.update s.model s.name none } := by
      unfold dropFromModel
      simp only [hm, free_ok hd, Option.map_some]
    have keep1 : ∀ (n : N) (q : ℕ) (d' : D), n ≠ s.name → s.model n = some q →
        s.heap[q]? = some (some d') → (s.heap.set p none)[q]? = some (some d') := by
      intro n q d' hn hq hd'
      rw [List.getElem?_set_ne]
      · exact hd'
      · intro he; subst he; exact hn (h.inj n s.name p hq hm)
    unfold TestSrc.freeOwned
    cases ho : s.owned with
    | false =>
      refine ⟨s.heap.set p none, ?_, by simp, keep1, fun e => by cases e⟩
      rw [hdrop]
      simp [ho]
    | true =>
      cases ht : s.test with
      | none =>
        refine ⟨s.heap.set p none, ?_, by simp, keep1, fun _ p e => by cases e⟩
        rw [hdrop]
        simp [ho, ht, free]
      | some t =>
        obtain ⟨dt, hdt, -⟩ := h.test t ht
        have htp : p ≠ t := by
          intro he; subst he; exact h.sep ho p s.name ht hm
        have hdt' : (s.heap.set p none)[t]? = some (some dt) := by
          rw [List.getElem?_set_ne htp]; exact hdt
        refine ⟨(s.heap.set p none).set t none, ?_, by simp, ?_, ?_⟩
        · rw [hdrop]
          simp [ho, ht, free_ok hdt']
        · intro n q d' hn hq hd'
          rw [List.getElem?_set_ne]
          · exact keep1 n q d' hn hq hd'
          · intro he; subst he; exact h.sep ho t n ht hq
        · intro _ q hq
          cases hq
          rw [List.getElem?_set_self (lt_of_some hdt')]

end Verif.TestSrc
