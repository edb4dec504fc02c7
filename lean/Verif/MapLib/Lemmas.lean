import Verif.MapLib.Spec
/-
The invariant of careful programs.
-/
set_option linter.unusedSimpArgs false
set_option linter.unusedVariables false
namespace Verif.MapLib
open Spec

theorem split_colon : ∀ (a b e e' : List Char), ':' ∉ e → ':' ∉ e' →
    a ++ ':' :: e = b ++ ':' :: e' → a = b ∧ e = e'
  | [], [], e, e', _, _, h => by simpa using h
  | [], c :: b, e, e', he, _, h => by
    simp only [List.nil_append, List.cons_append, List.cons.injEq] at h
    exact (he (by rw [h.2]; simp)).elim
  | c :: a, [], e, e', _, he', h => by
    simp only [List.nil_append, List.cons_append, List.cons.injEq] at h
    exact (he' (by rw [← h.2]; simp)).elim
  | c :: a, d :: b, e, e', he, he', h => by
    simp only [List.cons_append, List.cons.injEq] at h
    obtain ⟨h1, h2⟩ := split_colon a b e e' he he' h.2
    exact ⟨by rw [h.1, h1], h2⟩

theorem key_inj {f e f' e' : String} (he : ExtOK e) (he' : ExtOK e') (h : key f e = key f' e') :
    f = f' ∧ e = e' := by
  have h1 := congrArg String.toList h
  unfold key at h1
  rw [String.toList_append, String.toList_append, String.toList_append, String.toList_append,
    show "::".toList = [':', ':'] from rfl] at h1
  have h2 : (f.toList ++ [':']) ++ ':' :: e.toList = (f'.toList ++ [':']) ++ ':' :: e'.toList := by
    simpa using h1
  obtain ⟨h3, h4⟩ := split_colon _ _ _ _ he he' h2
  exact ⟨String.toList_inj.1 (List.append_cancel_right h3), String.toList_inj.1 h4⟩

/-- The invariant. -/
structure Inv (E : Env) (s : St) : Prop where
  sorted : StdMap.Sorted s.lib
  libOK : ∀ k a, StdMap.find s.lib k = some a → ∃ img, s.heap a = some img ∧
    k = key img.file img.ext ∧ ExtOK img.ext ∧ img.factor = 1 ∧
    E.disk img.file img.ext = some img.hpx
  full : ∀ a, s.heap a ≠ none → ∃ k, StdMap.find s.lib k = some a
  bound : ∀ a, s.heap a ≠ none → a < s.next
  objs : ∀ id o, s.objs id = some o → ExtOK o.ext ∧ ∀ a, o.ptr = some a →
    s.observer id = true ∧ o.expanded = E.expand o.file ∧
    StdMap.find s.lib (key o.expanded o.ext) = some a

theorem inv_empty (E : Env) : Inv E St.empty := by
  refine ⟨StdMap.sorted_nil, ?_, ?_, ?_, ?_⟩
  · intro k a h; cases h
  · intro a h; exact (h rfl).elim
  · intro a h; exact (h rfl).elim
  · intro id o h; cases h

theorem inv_newObj {E : Env} {s : St} (h : Inv E s) {o : Obj} (he : ExtOK o.ext)
    (hp : o.ptr = none) : Inv E (newObj s o) := by
  refine ⟨h.sorted, h.libOK, h.full, h.bound, ?_⟩
  intro id q hq
  simp only [newObj] at hq
  split at hq
  · cases hq
    exact ⟨he, fun a ha => by rw [hp] at ha; cases ha⟩
  · exact h.objs id q hq

theorem inv_setObj {E : Env} {s : St} (h : Inv E s) {id : ℕ} {o : Obj} (he : ExtOK o.ext)
    (hp : o.ptr = none) : Inv E (setObj s id o) := by
  refine ⟨h.sorted, h.libOK, h.full, h.bound, ?_⟩
  intro i q hq
  simp only [setObj] at hq
  split at hq
  · cases hq
    exact ⟨he, fun a ha => by rw [hp] at ha; cases ha⟩
  · exact h.objs i q hq

theorem wcsmap_inv {E : Env} {s : St} (h : Inv E s) {f e : String} {hp : Bool} (he : ExtOK e)
    (hd : E.disk f e = some hp) :
    ∃ s' a, wcsmap E s f e = some (s', a) ∧ Inv E s' ∧ StdMap.find s'.lib (key f e) = some a ∧
      s'.objs = s.objs ∧ s'.observer = s.observer := by
  unfold wcsmap
  cases hf : StdMap.find s.lib (key f e) with
  | some a => exact ⟨s, a, rfl, h, hf, rfl, rfl⟩
  | none =>
    simp only [hd]
    have hnew : s.heap s.next = none := by
      by_contra hc
      exact lt_irrefl _ (h.bound _ hc)
    refine ⟨_, _, rfl, ⟨StdMap.sorted_put h.sorted _ _, ?_, ?_, ?_, ?_⟩, ?_, rfl, rfl⟩
    · intro k a hk
      simp only [alloc]
      rw [StdMap.find_put h.sorted] at hk
      split at hk
      · rename_i hk'
        cases hk
        exact ⟨⟨f, e, hp, 1⟩, by simp, hk', he, rfl, hd⟩
      · obtain ⟨img, h1, h2⟩ := h.libOK k a hk
        refine ⟨img, ?_, h2⟩
        rw [if_neg]
        · exact h1
        · rintro rfl; rw [hnew] at h1; cases h1
    · intro a ha
      simp only [alloc] at ha
      by_cases c : a = s.next
      · exact ⟨key f e, by rw [StdMap.find_put h.sorted, if_pos rfl, c]⟩
      · rw [if_neg c] at ha
        obtain ⟨k, hk⟩ := h.full a ha
        refine ⟨k, ?_⟩
        rw [StdMap.find_put h.sorted, if_neg]
        · exact hk
        · rintro rfl; rw [hf] at hk; cases hk
    · intro a ha
      simp only [alloc] at ha ⊢
      by_cases c : a = s.next
      · omega
      · rw [if_neg c] at ha
        have := h.bound a ha
        omega
    · intro id o ho
      obtain ⟨h1, h2⟩ := h.objs id o ho
      refine ⟨h1, fun a ha => ?_⟩
      obtain ⟨h3, h4, h5⟩ := h2 a ha
      refine ⟨h3, h4, ?_⟩
      simp only
      rw [StdMap.find_put h.sorted, if_neg]
      · exact h5
      · intro c; rw [c, hf] at h5; cases h5
    · simp only
      rw [StdMap.find_put h.sorted, if_pos rfl]

/-- Reading a file that can be read. -/
theorem readFits_inv {E : Env} {s : St} (h : Inv E s) {id : ℕ} {o : Obj} (he : ExtOK o.ext)
    {hp : Bool} (hd : E.disk (E.expand o.file) o.ext = some hp) :
    ∃ s' a, readFits E s id o = (s', some a) ∧ Inv E s' ∧
      StdMap.find s'.lib (key (E.expand o.file) o.ext) = some a := by
  obtain ⟨s1, a, h1, h2, h3, h4, h5⟩ := wcsmap_inv h he hd
  unfold readFits
  simp only [hd, h1]
  refine ⟨_, _, rfl, ⟨h2.sorted, h2.libOK, h2.full, h2.bound, ?_⟩, h3⟩
  intro i q hq
  simp only [addObserver, setObj] at hq ⊢
  split at hq
  · rename_i hi
    cases hq
    refine ⟨he, fun b hb => ?_⟩
    cases hb
    refine ⟨by rw [if_pos hi], rfl, h3⟩
  · rename_i hi
    obtain ⟨h6, h7⟩ := h2.objs i q hq
    refine ⟨h6, fun b hb => ?_⟩
    obtain ⟨h8, h9⟩ := h7 b hb
    exact ⟨by rw [if_neg hi]; exact h8, h9⟩

/-- Trying to read a file that cannot be read. -/
theorem readFits_fail {E : Env} {s : St} (h : Inv E s) {id : ℕ} {o : Obj} (he : ExtOK o.ext)
    (hp : o.ptr = none) (hd : E.disk (E.expand o.file) o.ext = none) :
    ∃ s', readFits E s id o = (s', none) ∧ Inv E s' := by
  unfold readFits
  simp only [hd]
  exact ⟨_, rfl, inv_setObj h he hp⟩

theorem notify_inv {E : Env} {s : St} (hsorted : StdMap.Sorted s.lib)
    (hlib : ∀ k a, StdMap.find s.lib k = some a → ∃ img, s.heap a = some img ∧
      k = key img.file img.ext ∧ ExtOK img.ext ∧ img.factor = 1 ∧
      E.disk img.file img.ext = some img.hpx)
    (hfull : ∀ a, s.heap a ≠ none → ∃ k, StdMap.find s.lib k = some a)
    (hbound : ∀ a, s.heap a ≠ none → a < s.next)
    (hobjs : ∀ id o, s.objs id = some o → ExtOK o.ext ∧ ∀ a, o.ptr = some a →
      s.observer id = true ∧ o.expanded = E.expand o.file ∧
      (StdMap.find s.lib (key o.expanded o.ext) = some a ∨
        StdMap.find s.lib (key o.expanded o.ext) = none)) : Inv E (notify s) := by
  refine ⟨hsorted, hlib, hfull, hbound, ?_⟩
  intro id q hq
  simp only [notify] at hq ⊢
  cases ho : s.objs id with
  | none => rw [ho] at hq; cases hq
  | some o =>
    rw [ho, Option.map_some, Option.some.injEq] at hq
    obtain ⟨h1, h2⟩ := hobjs id o ho
    by_cases hob : s.observer id = true
    · rw [if_pos hob] at hq
      unfold update at hq
      cases hf : StdMap.find s.lib (key o.expanded o.ext) with
      | none =>
        rw [hf] at hq
        subst hq
        exact ⟨h1, fun a ha => by cases ha⟩
      | some b =>
        rw [hf] at hq
        subst hq
        refine ⟨h1, fun a ha => ?_⟩
        obtain ⟨h3, h4, h5⟩ := h2 a ha
        refine ⟨h3, h4, ?_⟩
        rcases h5 with h5 | h5
        · exact h5
        · rw [hf] at h5; cases h5
    · rw [if_neg hob] at hq
      subst hq
      refine ⟨h1, fun a ha => ?_⟩
      exact absurd (h2 a ha).1 hob

theorem delete_inv {E : Env} {s : St} (h : Inv E s) (f e : String) :
    ∃ s', deleteByName s f e = some s' ∧ Inv E s' := by
  unfold deleteByName
  cases hf : StdMap.find s.lib (key f e) with
  | none =>
    refine ⟨_, rfl, notify_inv h.sorted h.libOK h.full h.bound ?_⟩
    intro id o ho
    obtain ⟨h1, h2⟩ := h.objs id o ho
    exact ⟨h1, fun a ha => ⟨(h2 a ha).1, (h2 a ha).2.1, Or.inl (h2 a ha).2.2⟩⟩
  | some a =>
    obtain ⟨img, himg, hk⟩ := h.libOK _ _ hf
    simp only [himg]
    have hne : ∀ k b, StdMap.find (StdMap.erase s.lib (key f e)) k = some b → b ≠ a ∧
        StdMap.find s.lib k = some b := by
      intro k b hb
      rw [StdMap.find_erase h.sorted] at hb
      split at hb
      · cases hb
      · rename_i hk'
        refine ⟨?_, hb⟩
        rintro rfl
        obtain ⟨img2, h1, h2⟩ := h.libOK _ _ hb
        rw [himg] at h1
        cases h1
        exact hk' (by rw [h2.1, ← hk.1])
    refine ⟨_, rfl, notify_inv (StdMap.sorted_erase h.sorted _) ?_ ?_ ?_ ?_⟩
    · intro k b hb
      obtain ⟨h1, h2⟩ := hne k b hb
      obtain ⟨img2, h3, h4⟩ := h.libOK k b h2
      exact ⟨img2, by simp only [free]; rw [if_neg h1]; exact h3, h4⟩
    · intro b hb
      simp only [free] at hb ⊢
      by_cases c : b = a
      · rw [if_pos c] at hb; exact (hb rfl).elim
      · rw [if_neg c] at hb
        obtain ⟨k, hk'⟩ := h.full b hb
        refine ⟨k, ?_⟩
        rw [StdMap.find_erase h.sorted, if_neg]
        · exact hk'
        · rintro rfl; rw [hf] at hk'; cases hk'; exact c rfl
    · intro b hb
      simp only [free] at hb ⊢
      by_cases c : b = a
      · rw [if_pos c] at hb; exact (hb rfl).elim
      · rw [if_neg c] at hb; exact h.bound b hb
    · intro id o ho
      obtain ⟨h1, h2⟩ := h.objs id o ho
      refine ⟨h1, fun b hb => ?_⟩
      obtain ⟨h3, h4, h5⟩ := h2 b hb
      refine ⟨h3, h4, ?_⟩
      simp only [free]
      rw [StdMap.find_erase h.sorted]
      split
      · exact Or.inr rfl
      · exact Or.inl h5

theorem inv_setPtr {E : Env} {s : St} (h : Inv E s) (id : ℕ) : Inv E (setPtr s id none) := by
  refine ⟨h.sorted, h.libOK, h.full, h.bound, ?_⟩
  intro i q hq
  simp only [setPtr] at hq
  split at hq
  · cases ho : s.objs i with
    | none => rw [ho] at hq; cases hq
    | some o =>
      rw [ho, Option.map_some, Option.some.injEq] at hq
      subst hq
      exact ⟨(h.objs i o ho).1, fun a ha => by cases ha⟩
  · exact h.objs i q hq

/-- Using a map. -/
theorem use_inv {E : Env} {s : St} (h : Inv E s) {id : ℕ} {o : Obj} (ho : s.objs id = some o) :
    Shows E o.file o.ext (projmap E s id o) ∧ ∀ s', (projmap E s id o).state? = some s' → Inv E s' := by
  obtain ⟨he, hp⟩ := h.objs id o ho
  unfold projmap
  cases hptr : o.ptr with
  | some a =>
    obtain ⟨h1, h2, h3⟩ := hp a hptr
    obtain ⟨img, h4, h5, h6, h7, h8⟩ := h.libOK _ _ h3
    obtain ⟨h9, h10⟩ := key_inj he h6 h5
    simp only [deref, h4, Shows, Out.state?]
    refine ⟨⟨by rw [← h9, h2], h10.symm, h7, ?_⟩, fun s' hs => by cases hs; exact h⟩
    rw [← h2, h9, h10]; exact h8
  | none =>
    simp only
    cases hd : E.disk (E.expand o.file) o.ext with
    | none =>
      obtain ⟨s', h1, h2⟩ := readFits_fail (id := id) h he hptr hd
      rw [h1]
      exact ⟨hd, fun s'' hs => by cases hs; exact h2⟩
    | some b =>
      obtain ⟨s', a, h1, h2, h3⟩ := readFits_inv (id := id) h he hd
      obtain ⟨img, h4, h5, h6, h7, h8⟩ := h2.libOK _ _ h3
      obtain ⟨h9, h10⟩ := key_inj he h6 h5
      rw [h1]
      simp only [deref, h4, Shows, Out.state?]
      refine ⟨⟨h9.symm, h10.symm, h7, ?_⟩, fun s'' hs => by cases hs; exact h2⟩
      rw [h9, h10]; exact h8

/-- A careful operation is defined and keeps the invariant. -/
theorem step_inv {E : Env} {s : St} (h : Inv E s) {op : Op} (hc : Careful E s op) :
    ∃ s', (step E s op).state? = some s' ∧ Inv E s' := by
  cases op with
  | create f e => exact ⟨_, rfl, inv_newObj h hc rfl⟩
  | copy id =>
    obtain ⟨o, ho, hp⟩ := hc
    rw [step, ho]
    exact ⟨_, rfl, inv_newObj h (h.objs id o ho).1 hp⟩
  | assign id other =>
    obtain ⟨⟨q, hq⟩, o, ho, hp⟩ := hc
    rw [step, hq, ho]
    exact ⟨_, rfl, inv_setObj h (h.objs other o ho).1 hp⟩
  | destroy id =>
    obtain ⟨o, ho⟩ := hc
    rw [step, ho]
    refine ⟨_, rfl, h.sorted, h.libOK, h.full, h.bound, ?_⟩
    intro i q hq
    simp only at hq ⊢
    split at hq
    · cases hq
    · rename_i hi
      obtain ⟨h1, h2⟩ := h.objs i q hq
      exact ⟨h1, fun a ha => ⟨by rw [if_neg hi]; exact (h2 a ha).1, (h2 a ha).2⟩⟩
  | use id =>
    obtain ⟨o, ho⟩ := hc
    rw [step, ho]
    obtain ⟨h1, h2⟩ := use_inv h ho
    simp only
    cases hr : projmap E s id o with
    | ok s' r => exact ⟨s', rfl, h2 s' (by rw [hr]; rfl)⟩
    | throws s' => exact ⟨s', rfl, h2 s' (by rw [hr]; rfl)⟩
    | ub => rw [hr] at h1; exact h1.elim
  | read id f e load =>
    obtain ⟨he, hc⟩ := hc
    cases load with
    | false =>
      rcases hc with ⟨o, ho, hp⟩ | ⟨_, hl, _⟩
      · rw [step, ho]
        exact ⟨_, rfl, inv_setObj h he hp⟩
      · cases hl
    | true =>
      have halive : ∃ o, s.objs id = some o := by
        rcases hc with ⟨o, ho, _⟩ | ⟨ha, _⟩
        · exact ⟨o, ho⟩
        · exact ha
      obtain ⟨o, ho⟩ := halive
      rw [step, ho]
      simp only [if_true]
      cases hd : E.disk (E.expand f) e with
      | none =>
        rcases hc with ⟨o', ho', hp⟩ | ⟨_, _, hn⟩
        · rw [ho] at ho'
          cases ho'
          obtain ⟨s', h1, h2⟩ := readFits_fail (id := id) (o := { o with file := f, ext := e }) h he hp hd
          rw [h1]
          exact ⟨s', rfl, h2⟩
        · exact (hn hd).elim
      | some b =>
        obtain ⟨s', a, h1, h2, h3⟩ := readFits_inv (id := id) (o := { o with file := f, ext := e }) h he hd
        rw [h1]
        exact ⟨s', rfl, h2⟩
  | deleteMap id =>
    obtain ⟨o, ho⟩ := hc
    obtain ⟨s', h1, h2⟩ := delete_inv h o.expanded o.ext
    rw [step, ho]
    simp only [deleteMap, h1, Option.map_some, ofOption]
    exact ⟨_, rfl, inv_setPtr h2 id⟩
  | rebin id f => exact hc.elim
  | libDelete f e =>
    obtain ⟨s', h1, h2⟩ := delete_inv h f e
    rw [step, h1]
    exact ⟨_, rfl, h2⟩
  | libDeletePtr a => exact hc.elim

theorem reach_inv {E : Env} {s : St} {N : Names} (h : Reach E s N) : Inv E s := by
  induction h with
  | start => exact inv_empty E
  | step _ hc hs ih =>
    obtain ⟨s'', h1, h2⟩ := step_inv ih hc
    rw [hs] at h1
    cases h1
    exact h2

/-- The names the objects have. -/
def namesOf (s : St) : Names := ⟨s.nobj, fun id => (s.objs id).map (fun o => (o.file, o.ext))⟩

theorem names_ext {N M : Names} (h1 : N.count = M.count) (h2 : ∀ i, N.of i = M.of i) : N = M := by
  cases N; cases M
  simp only [Names.mk.injEq] at *
  exact ⟨h1, funext h2⟩

theorem namesOf_setObj {s : St} {id : ℕ} {o : Obj} (i : ℕ) :
    (namesOf (setObj s id o)).of i = Function.update (namesOf s).of id (some (o.file, o.ext)) i := by
  simp only [namesOf, setObj, Function.update_apply]
  split <;> rfl

theorem wcsmap_names {E : Env} {s s' : St} {f e : String} {a : ℕ}
    (h : wcsmap E s f e = some (s', a)) : s'.objs = s.objs ∧ s'.nobj = s.nobj := by
  unfold wcsmap at h
  split at h
  · cases h; exact ⟨rfl, rfl⟩
  · split at h
    · cases h
    · cases h; exact ⟨rfl, rfl⟩

theorem readFits_names {E : Env} {s : St} {id : ℕ} {o : Obj} :
    namesOf (readFits E s id o).1 =
      ⟨s.nobj, Function.update (namesOf s).of id (some (o.file, o.ext))⟩ := by
  unfold readFits
  split
  · exact names_ext rfl (fun i => namesOf_setObj i)
  · split
    · exact names_ext rfl (fun i => namesOf_setObj i)
    · rename_i s' a hw
      obtain ⟨h1, h2⟩ := wcsmap_names hw
      refine names_ext h2 (fun i => ?_)
      have := namesOf_setObj (s := s') (id := id)
        (o := { o with expanded := E.expand o.file, ptr := some a }) i
      simp only [namesOf, h1] at this ⊢
      exact this

theorem deref_names {s s' : St} {a : ℕ} (h : (deref s a).state? = some s') : s' = s := by
  unfold deref at h
  split at h
  · cases h; rfl
  · cases h

theorem notify_names (s : St) : namesOf (notify s) = namesOf s := by
  refine names_ext rfl (fun i => ?_)
  simp only [namesOf, notify]
  cases s.objs i with
  | none => rfl
  | some o =>
    simp only [Option.map_some]
    split
    · unfold update; split <;> rfl
    · rfl

theorem setPtr_names (s : St) (id : ℕ) (p : Option ℕ) : namesOf (setPtr s id p) = namesOf s := by
  refine names_ext rfl (fun i => ?_)
  simp only [namesOf, setPtr]
  split
  · cases s.objs i <;> rfl
  · rfl

theorem deleteByName_names {s s' : St} {f e : String} (h : deleteByName s f e = some s') :
    namesOf s' = namesOf s := by
  unfold deleteByName at h
  split at h
  · cases h; exact notify_names s
  · split at h
    · cases h
    · cases h; exact notify_names _

theorem deleteMap_names {s s' : St} {id : ℕ} {o : Obj} (h : deleteMap s id o = some s') :
    namesOf s' = namesOf s := by
  unfold deleteMap at h
  cases hd : deleteByName s o.expanded o.ext with
  | none => rw [hd] at h; cases h
  | some s1 =>
    rw [hd] at h
    cases h
    rw [setPtr_names, deleteByName_names hd]

theorem rebin_names {s s' : St} {id : ℕ} {o : Obj} {f : ℕ} (h : rebin s id o f = some s') :
    namesOf s' = namesOf s := by
  unfold rebin at h
  split at h
  · cases h; rfl
  · split at h
    · cases h
    · rename_i a _ _ img hi
      cases hd : deleteMap (rebinImg s a img f).1 id o with
      | none => rw [hd] at h; cases h
      | some s1 =>
        rw [hd] at h
        cases h
        rw [setPtr_names, deleteMap_names hd]
        unfold rebinImg
        split <;> rfl

theorem state_ofOption {x : Option St} {s' : St} (h : (ofOption x).state? = some s') :
    x = some s' := by
  cases x with
  | none => cases h
  | some s => cases h; rfl

/-- Every operation changes the names as the program says. -/
theorem step_names {E : Env} {s s' : St} {op : Op} (h : (step E s op).state? = some s') :
    namesOf s' = (namesOf s).step op := by
  cases op with
  | create f e =>
    cases h
    refine names_ext rfl (fun i => ?_)
    simp only [namesOf, newObj, Names.step, Function.update_apply]
    split <;> rfl
  | copy id =>
    rw [step] at h
    cases ho : s.objs id with
    | none => rw [ho] at h; cases h
    | some o =>
      rw [ho] at h
      cases h
      refine names_ext rfl (fun i => ?_)
      simp only [namesOf, newObj, Names.step, Function.update_apply, ho]
      split <;> rfl
  | assign id other =>
    rw [step] at h
    cases hi : s.objs id with
    | none => rw [hi] at h; cases h
    | some q =>
      cases ho : s.objs other with
      | none => rw [hi, ho] at h; cases h
      | some o =>
        rw [hi, ho] at h
        cases h
        refine names_ext rfl (fun i => ?_)
        rw [namesOf_setObj]
        simp only [namesOf, Names.step, Function.update_apply, ho]
        split <;> rfl
  | destroy id =>
    rw [step] at h
    cases ho : s.objs id with
    | none => rw [ho] at h; cases h
    | some o =>
      rw [ho] at h
      cases h
      refine names_ext rfl (fun i => ?_)
      simp only [namesOf, Names.step, Function.update_apply]
      split <;> rfl
  | use id =>
    rw [step] at h
    cases ho : s.objs id with
    | none => rw [ho] at h; cases h
    | some o =>
      rw [ho] at h
      simp only at h
      unfold projmap at h
      have hsame : Function.update (namesOf s).of id (some (o.file, o.ext)) = (namesOf s).of := by
        funext i
        rw [Function.update_apply]
        split
        · rename_i hi; rw [hi]; simp [namesOf, ho]
        · rfl
      have hr := readFits_names (E := E) (s := s) (id := id) (o := o)
      rw [hsame] at hr
      split at h
      · rw [deref_names h]; rfl
      · split at h
        · rename_i s1 a hq
          rw [hq] at hr
          rw [deref_names h]; exact hr
        · rename_i s1 hq
          rw [hq] at hr
          cases h; exact hr
  | read id f e load =>
    rw [step] at h
    cases ho : s.objs id with
    | none => rw [ho] at h; cases h
    | some o =>
      rw [ho] at h
      simp only at h
      have hr := readFits_names (E := E) (s := s) (id := id) (o := { o with file := f, ext := e })
      split at h
      · split at h
        · rename_i s1 a hq
          rw [hq] at hr
          cases h; exact hr
        · rename_i s1 hq
          rw [hq] at hr
          cases h; exact hr
      · cases h
        refine names_ext rfl (fun i => ?_)
        rw [namesOf_setObj]
        rfl
  | deleteMap id =>
    rw [step] at h
    cases ho : s.objs id with
    | none => rw [ho] at h; cases h
    | some o =>
      rw [ho] at h
      exact deleteMap_names (state_ofOption h)
  | rebin id f =>
    rw [step] at h
    cases ho : s.objs id with
    | none => rw [ho] at h; cases h
    | some o =>
      rw [ho] at h
      exact rebin_names (state_ofOption h)
  | libDelete f e => exact deleteByName_names (state_ofOption h)
  | libDeletePtr a =>
    have h := state_ofOption h
    unfold deleteByPtr at h
    split at h
    · cases h; rfl
    · split at h
      · cases h
      · cases h; rfl

theorem reach_names {E : Env} {s : St} {N : Names} (h : Reach E s N) : namesOf s = N := by
  induction h with
  | start => exact names_ext rfl (fun _ => rfl)
  | step _ hc hs ih => rw [step_names hs, ih]

end Verif.MapLib
