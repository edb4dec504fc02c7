import Verif.WtOwn.Lemmas2

set_option linter.unusedSimpArgs false
set_option linter.unusedVariables false
set_option linter.unusedSectionVars false

/-!
# Lemmas about weights maps and their users: histories
-/

namespace Verif.WtOwn

open Verif.StdMap (find put erase Sorted)

variable {F W ν : Type} [LinearOrder F] [DecidableEq ν]

/-- Forgetting a map nobody needs. -/
theorem R.drop {disk : F → W} {s : St F W ν} {v : Spec.St F W ν} (h : R disk s v) {g : F} {p : ℕ}
    (hg : find s.lib g = some p) (hn : ¬ Needs v g) :
    ∃ s', dropOrig s (some p) = .ok s' ∧ R disk s' v ∧ s'.likes = s.likes ∧ s'.wm = s.wm := by
  unfold dropOrig
  have hfind : s.lib.find? (fun x => x.2 == p) = some (g, p) := by
    cases hf : s.lib.find? (fun x => x.2 == p) with
    | none =>
      rw [List.find?_eq_none] at hf
      exact absurd (by simp) (hf _ (StdMap.find_some_mem hg))
    | some x =>
      have h1 := List.find?_some hf
      have h2 := List.mem_of_find?_eq_some hf
      obtain ⟨g', p'⟩ := x
      simp only [beq_iff_eq] at h1
      subst h1
      rw [h.inj g' g p' (StdMap.find_of_mem h.sorted h2) hg]
  simp only [hfind, free_ok (h.live g p hg)]
  refine ⟨_, rfl, ?_, rfl, rfl⟩
  have hfe : ∀ x, find (erase s.lib g) x = if x = g then none else find s.lib x := by
    intro x; rw [StdMap.find_erase h.sorted]
  apply h.relib
  · exact StdMap.sorted_erase h.sorted g
  · intro f q hq
    rw [hfe] at hq
    split at hq
    · cases hq
    · rename_i hne
      rw [List.getElem?_set_ne]
      · exact h.live f q hq
      · intro e; subst e; exact hne (h.inj f g p hq hg)
  · intro f f' q hq hq'
    rw [hfe] at hq hq'
    split at hq
    · cases hq
    · split at hq'
      · cases hq'
      · exact h.inj f f' q hq hq'
  · intro f q hf hq
    rw [hfe, if_neg]
    · exact hq
    · intro e; subst e; exact hn hf

theorem like_ok {disk : F → W} {s : St F W ν} {v : Spec.St F W ν} (h : R disk s v) {i : ℕ}
    {o' : Spec.Like F W ν} (ho' : v.likes[i]? = some o') :
    ∃ o, s.likes[i]? = some o ∧ like s i = .ok o ∧ LR disk s i o o' := by
  obtain ⟨o, ho⟩ := ex_of_lt (l := s.likes) (k := i) (by rw [h.llen]; exact lt_of_some ho')
  obtain ⟨o'', h1, hL⟩ := h.likes i o ho
  rw [ho'] at h1
  cases h1
  exact ⟨o, ho, by unfold like; rw [ho], hL⟩

theorem mapOf_ok {disk : F → W} {s : St F W ν} {v : Spec.St F W ν} (h : R disk s v) {i : ℕ} {n : ν}
    {o' : Spec.Like F W ν} (ho' : v.likes[i]? = some o') {t : Tree ν}
    (ht : look n o'.srcs = some t) :
    ∃ o, s.likes[i]? = some o ∧ LR disk s i o o' ∧
      mapOf s i n = .ok (t.id, ⟨i, o.wt, o'.w⟩) := by
  obtain ⟨o, ho, h1, hL⟩ := like_ok h ho'
  refine ⟨o, ho, hL, ?_⟩
  unfold mapOf
  rw [h1, Res.bind_ok, hL.srcs, ht]
  simp only
  rw [((hL.all t (by rw [hL.srcs]; exact look_mem ht)).id).2]

theorem newLike_R {disk : F → W} {s : St F W ν} {v : Spec.St F W ν} (h : R disk s v)
    {k : Option ℕ} {d : Bool} {f : Option F} (hk : Spec.file v k = some f)
    (hc : Spec.Careful v (.new k d)) :
    ∃ s', newLike s k d = .ok s' ∧
      R disk s' { v with
        vars := if d = true then Spec.forget v.vars f else v.vars
        likes := v.likes ++ [⟨f.map disk, [], if d = true then none else f⟩] } := by
  have hc2 : ∀ (m : ℕ) (x : F × Bool), k = some m → v.vars[m]? = some x → x.2 = true := by
    intro m x e hx
    subst e
    exact hc.1 x hx
  rcases makeWts_R h hk hc2 with ⟨rfl, rfl, hvar⟩ | ⟨m, g, p, rfl, rfl, hm, hvar, hlib, hpm⟩
  · unfold newLike
    rw [hvar, Res.bind_ok]
    simp only [makeWts, Res.bind_ok]
    have key : R disk { s with likes := s.likes ++ [⟨none, none, []⟩] }
        { v with likes := v.likes ++ [⟨none, [], none⟩] } :=
      h.append s.wm (fun _ _ hw => hw) (by intro q hq; cases hq) rfl (Or.inl ⟨rfl, rfl⟩)
    cases d with
    | false =>
      simp only [Bool.false_eq_true, if_false, Res.bind_ok]
      exact ⟨_, rfl, key⟩
    | true =>
      simp only [if_true, dropOrig, Res.bind_ok]
      exact ⟨_, rfl, key⟩
  · unfold newLike
    rw [hvar, Res.bind_ok]
    simp only [makeWts, deref_ok hpm, Res.bind_ok]
    have hrd : readWts (s.wm ++ [some (disk g)]) (some s.wm.length) = .ok (some (disk g)) :=
      readWts_ok (by rw [List.getElem?_append_right (Nat.le_refl _)]; simp)
    have hwm : ∀ (q : ℕ) (w : W), s.wm[q]? = some (some w) →
        (s.wm ++ [some (disk g)])[q]? = some (some w) := by
      intro q w hw
      rw [List.getElem?_append_left (lt_of_some hw)]; exact hw
    have hq : ∀ q', some s.wm.length = some q' → s.wm.length ≤ q' := by
      intro q' e; cases e; exact Nat.le_refl _
    cases d with
    | false =>
      simp only [Bool.false_eq_true, if_false, Res.bind_ok]
      refine ⟨_, rfl, ?_⟩
      exact h.append (f := some g) (s.wm ++ [some (disk g)]) hwm hq hrd
        (Or.inr ⟨g, p, rfl, rfl, hlib, rfl⟩)
    | true =>
      simp only [if_true]
      obtain ⟨hc3, hc4⟩ := hc.2 rfl (g, true) hm
      have h2 := (h.forget (some g)).append (f := none) (p := none) (s.wm ++ [some (disk g)]) hwm hq
        hrd (Or.inl ⟨rfl, rfl⟩)
      have hn : ¬ Needs { v with
          vars := Spec.forget v.vars (some g)
          likes := v.likes ++ [⟨some (disk g), [], none⟩] } g := by
        rintro (⟨k, hk'⟩ | ⟨o, ho, hcur⟩ | ⟨k, hk'⟩)
        · simp only [Spec.forget, List.getElem?_map, Option.map_eq_some_iff] at hk'
          obtain ⟨x, hx, e⟩ := hk'
          split at e
          · cases e
          · rename_i hne
            subst e
            exact hne rfl
        · simp only at ho
          rcases List.mem_append.1 ho with ho | ho
          · exact hc3 o ho hcur
          · simp only [List.mem_singleton] at ho
            subst ho
            cases hcur
        · exact hc4 _ (List.mem_of_getElem? hk') rfl
      -- the order of forgetting and appending does not matter
      obtain ⟨s', hd, h3, hl, hw⟩ := h2.drop hlib hn
      have hd' : ∃ s1, dropOrig { s with wm := s.wm ++ [some (disk g)] } (some p) = .ok s1 ∧
          s' = { s1 with likes := s1.likes ++ [⟨none, some s.wm.length, []⟩] } := by
        unfold dropOrig at hd ⊢
        simp only at hd ⊢
        cases hf : s.lib.find? (fun x => x.2 == p) with
        | none =>
          rw [hf] at hd
          simp only at hd ⊢
          cases hd
          exact ⟨_, rfl, rfl⟩
        | some x =>
          rw [hf] at hd
          simp only [free_ok hpm] at hd ⊢
          cases hd
          exact ⟨_, rfl, rfl⟩
      obtain ⟨s1, e1, e2⟩ := hd'
      rw [e1]
      simp only [Res.bind_ok]
      refine ⟨_, rfl, ?_⟩
      rw [← e2]
      exact h3

theorem step_R {disk : F → W} {al : List Bool → ℕ} (hal : Good al) {s : St F W ν}
    {v v' : Spec.St F W ν} {op : Op F ν} {x : Option (Option W)} (h : R disk s v)
    (hs : Spec.step disk v op = some (v', x)) (hc : Spec.Careful v op) :
    ∃ s', step disk al s op = .ok (s', x) ∧ R disk s' v' := by
  cases op with
  | get f =>
    simp only [Spec.step, Option.some.injEq, Prod.mk.injEq] at hs
    obtain ⟨rfl, rfl⟩ := hs
    obtain ⟨h1, h2, h3, h4⟩ := h.fetch hal f
    refine ⟨_, rfl, ?_⟩
    have := h1.push h2
    rw [h3] at this
    exact this
  | new k d =>
    simp only [Spec.step] at hs
    cases hf : Spec.file v k with
    | none => rw [hf] at hs; cases hs
    | some f =>
      rw [hf] at hs
      simp only [Option.some.injEq, Prod.mk.injEq] at hs
      obtain ⟨rfl, rfl⟩ := hs
      obtain ⟨s', h1, h2⟩ := newLike_R h hf hc
      exact ⟨s', by simp only [step, h1, Res.bind_ok], h2⟩
  | weights i k =>
    simp only [Spec.step] at hs
    cases ho : v.likes[i]? with
    | none => rw [ho] at hs; simp at hs
    | some o' =>
      cases hf : Spec.file v k with
      | none => rw [ho, hf] at hs; simp at hs
      | some f =>
        rw [ho, hf] at hs
        simp only [Option.some.injEq, Prod.mk.injEq] at hs
        obtain ⟨rfl, rfl⟩ := hs
        obtain ⟨s', h1, h2⟩ := h.weights ho hf hc
        exact ⟨s', by simp only [step, h1, Res.bind_ok], h2⟩
  | add i n =>
    simp only [Spec.step] at hs
    cases ho : v.likes[i]? with
    | none => rw [ho] at hs; simp at hs
    | some o' =>
      rw [ho] at hs
      simp only [Option.map_eq_some_iff, Prod.mk.injEq] at hs
      obtain ⟨ts, hts, rfl, rfl⟩ := hs
      obtain ⟨o, ho1, ho2, hL⟩ := like_ok h ho
      obtain ⟨s', h1, h2⟩ := h.withNew ho1 hL ho ts (by
        intro P hP hall t ht
        rcases insert_mem hts t ht with rfl | ht
        · exact .mk _ _ _ _ (by rw [← h.next]; exact hP) (by simp)
        · exact hall t (by rw [hL.srcs]; exact ht))
      refine ⟨s', ?_, h2⟩
      simp only [step, ho2, Res.bind_ok, hL.srcs, h.next, hts, h1]
  | merge i c ns =>
    simp only [Spec.step] at hs
    cases ho : v.likes[i]? with
    | none => rw [ho] at hs; simp at hs
    | some o' =>
      rw [ho] at hs
      simp only [Option.map_eq_some_iff, Prod.mk.injEq] at hs
      obtain ⟨ts, hts, rfl, rfl⟩ := hs
      obtain ⟨o, ho1, ho2, hL⟩ := like_ok h ho
      obtain ⟨s', h1, h2⟩ := h.withNew ho1 hL ho ts (by
        intro P hP hall
        rw [h.next] at hP
        rw [hL.srcs] at hall
        exact mergeT_all hts hP hall)
      refine ⟨s', ?_, h2⟩
      simp only [step, ho2, Res.bind_ok, hL.srcs, h.next, hts, h1]
  | split i c =>
    simp only [Spec.step] at hs
    cases ho : v.likes[i]? with
    | none => rw [ho] at hs; simp at hs
    | some o' =>
      rw [ho] at hs
      simp only [Option.map_eq_some_iff, Prod.mk.injEq] at hs
      obtain ⟨ts, hts, rfl, rfl⟩ := hs
      obtain ⟨o, ho1, ho2, hL⟩ := like_ok h ho
      refine ⟨_, by simp only [step, ho2, Res.bind_ok, hL.srcs, hts]; rfl, ?_⟩
      have := h.change (o2 := { o with srcs := ts }) (o2' := { o' with srcs := ts }) ho1 s.wm s.smap
        s.next (Nat.le_refl _) (fun _ _ _ _ _ _ _ hw => hw) (fun _ _ _ hm _ => hm)
        (fun q hq => Or.inl hq)
        ⟨rfl, hL.cur, hL.wt, splitT_all hts (by rw [← hL.srcs]; exact hL.all)⟩
      rw [h.next] at this
      simpa only [← h.next] using this
  | sums i n =>
    simp only [Spec.step] at hs
    cases ho : v.likes[i]? with
    | none => rw [ho] at hs; simp at hs
    | some o' =>
      rw [ho] at hs
      simp only [Option.map_eq_some_iff, Prod.mk.injEq] at hs
      obtain ⟨t, ht, rfl, rfl⟩ := hs
      obtain ⟨o, ho1, hL, hm⟩ := mapOf_ok h ho ht
      exact ⟨s, by simp only [step, hm, Res.bind_ok], h⟩
  | image i n =>
    simp only [Spec.step] at hs
    cases ho : v.likes[i]? with
    | none => rw [ho] at hs; simp at hs
    | some o' =>
      rw [ho] at hs
      simp only [Option.map_eq_some_iff, Prod.mk.injEq] at hs
      obtain ⟨t, ht, rfl, rfl⟩ := hs
      obtain ⟨o, ho1, hL, hm⟩ := mapOf_ok h ho ht
      have hid := (hL.all t (by rw [hL.srcs]; exact look_mem ht)).id
      have e : (fun id => if id = t.id then some ⟨i, o.wt, o'.w⟩ else s.smap id) = s.smap := by
        funext id
        split
        · rename_i e; rw [e, hid.2]
        · rfl
      refine ⟨s, ?_, h⟩
      simp only [step, hm, Res.bind_ok, hL.wt, e]
  | helper f =>
    cases f with
    | none =>
      simp only [Spec.step, Option.some.injEq, Prod.mk.injEq] at hs
      obtain ⟨rfl, rfl⟩ := hs
      exact ⟨_, rfl, h.help (Or.inl ⟨rfl, rfl⟩)⟩
    | some f =>
      simp only [Spec.step, Option.some.injEq, Prod.mk.injEq] at hs
      obtain ⟨rfl, rfl⟩ := hs
      obtain ⟨h1, h2, h3, h4⟩ := h.fetch hal f
      refine ⟨_, rfl, ?_⟩
      have := h1.help (f := some f) (Or.inr ⟨f, _, rfl, rfl, h2⟩)
      rw [h4] at this
      exact this
  | phase k =>
    simp only [Spec.step] at hs
    split at hs
    · rename_i f hk
      simp only [Option.some.injEq, Prod.mk.injEq] at hs
      obtain ⟨rfl, rfl⟩ := hs
      cases f with
      | none =>
        refine ⟨s, ?_, h⟩
        simp only [step, h.hnone k hk]
        rfl
      | some f =>
        obtain ⟨p, h1, h2⟩ := h.hsome k f hk
        refine ⟨s, ?_, h⟩
        simp only [step, h1, deref_ok (h.live f p h2), Res.bind_ok]
        rfl
    · cases hs
  | endHelper k =>
    simp only [Spec.step] at hs
    split at hs
    · rename_i f hk
      simp only [Option.some.injEq, Prod.mk.injEq] at hs
      obtain ⟨rfl, rfl⟩ := hs
      cases f with
      | none =>
        refine ⟨_, ?_, h.endHelp k⟩
        simp only [step, h.hnone k hk]
      | some f => exact absurd hk (hc f)
    · cases hs

theorem run_R {disk : F → W} {al : List Bool → ℕ} (hal : Good al) (ops : List (Op F ν)) :
    ∀ {s : St F W ν} {v v' : Spec.St F W ν} {xs : List (Option (Option W))}, R disk s v →
      Spec.run disk v ops = some (v', xs) → Spec.AllCareful disk v ops →
      ∃ s', run disk al s ops = .ok (s', xs) ∧ R disk s' v' := by
  induction ops with
  | nil =>
    intro s v v' xs h hs hc
    simp only [Spec.run, Option.some.injEq, Prod.mk.injEq] at hs
    obtain ⟨rfl, rfl⟩ := hs
    exact ⟨s, rfl, h⟩
  | cons op ops ih =>
    intro s v v' xs h hs hc
    rw [Spec.run] at hs
    cases hop : Spec.step disk v op with
    | none => rw [hop] at hs; cases hs
    | some r =>
      obtain ⟨v1, x⟩ := r
      rw [hop] at hs
      simp only [Option.map_eq_some_iff] at hs
      obtain ⟨⟨v2, xs'⟩, hr, e⟩ := hs
      simp only [Prod.mk.injEq] at e
      obtain ⟨rfl, rfl⟩ := e
      obtain ⟨s1, h1, h2⟩ := step_R hal h hop hc.1
      obtain ⟨s2, h3, h4⟩ := ih h2 hr (hc.2 v1 x hop)
      exact ⟨s2, by simp only [run, h1, h3, Res.bind_ok], h4⟩

theorem run_append (disk : F → W) (al : List Bool → ℕ) (xs ys : List (Op F ν)) (s : St F W ν) :
    run disk al s (xs ++ ys) = (do
      let r ← run disk al s xs
      let r' ← run disk al r.1 ys
      .ok (r'.1, r.2 ++ r'.2)) := by
  induction xs generalizing s with
  | nil =>
    simp only [List.nil_append, run, Res.bind_ok]
    cases run disk al s ys <;> rfl
  | cons x xs ih =>
    simp only [List.cons_append, run]
    cases step disk al s x with
    | ub => rfl
    | throws => rfl
    | ok r =>
      simp only [Res.bind_ok, ih]
      cases run disk al r.1 xs with
      | ub => rfl
      | throws => rfl
      | ok r1 =>
        simp only [Res.bind_ok]
        cases run disk al r1.1 ys <;> rfl

end Verif.WtOwn
