import Verif.WtOwn.Lemmas

set_option linter.unusedSimpArgs false
set_option linter.unusedVariables false
set_option linter.unusedSectionVars false

/-!
# Lemmas about weights maps and their users: the calls
-/

namespace Verif.WtOwn

open Verif.StdMap (find put erase Sorted)

variable {F W ν : Type} [LinearOrder F] [DecidableEq ν]

/-- A change of one likelihood object. -/
theorem R.change {disk : F → W} {s : St F W ν} {v : Spec.St F W ν} (h : R disk s v) {i : ℕ}
    {o o2 : Like ν} {o2' : Spec.Like F W ν} (ho : s.likes[i]? = some o)
    (wm : List (Option W)) (smap : ℕ → Option (SMap W)) (next : ℕ) (hn : s.next ≤ next)
    (hw : ∀ (j : ℕ) (oj : Like ν) (q : ℕ) (w : W), j ≠ i → s.likes[j]? = some oj →
      oj.wt = some q → s.wm[q]? = some (some w) → wm[q]? = some (some w))
    (hm : ∀ id m, id < s.next → s.smap id = some m → m.like ≠ i → smap id = some m)
    (hq : ∀ q, o2.wt = some q → o.wt = some q ∨ s.wm.length ≤ q)
    (hL : LR disk { s with wm := wm, smap := smap, next := next, likes := s.likes.set i o2 } i o2 o2') :
    R disk { s with wm := wm, smap := smap, next := next, likes := s.likes.set i o2 }
      { v with next := next, likes := v.likes.set i o2' } where
  sorted := h.sorted
  live := h.live
  inj := h.inj
  vlen := h.vlen
  vars := h.vars
  llen := by simp [h.llen]
  likes := by
    intro j oj hj
    simp only at hj ⊢
    have hi : i < s.likes.length := lt_of_some ho
    by_cases e : i = j
    · subst e
      rw [List.getElem?_set_self hi] at hj
      cases hj
      exact ⟨o2', by rw [List.getElem?_set_self (by rw [← h.llen]; exact hi)], hL⟩
    · rw [List.getElem?_set_ne e] at hj
      obtain ⟨oj', h1, h2⟩ := h.likes j oj hj
      refine ⟨oj', by rw [List.getElem?_set_ne e]; exact h1, h2.srcs, h2.cur, ?_, ?_⟩
      · have hwt := h2.wt
        cases hp : oj.wt with
        | none => rw [hp] at hwt; exact hwt
        | some q =>
          rw [hp] at hwt
          obtain ⟨w, h3, h4⟩ := readWts_some hwt
          rw [h4]
          exact readWts_ok (hw j oj q w (fun x => e x.symm) hj hp h3)
      · intro t ht
        refine (h2.all t ht).mono ?_
        rintro id ⟨a1, a2⟩
        exact ⟨Nat.lt_of_lt_of_le a1 hn, hm id _ a1 a2 (fun x => e x.symm)⟩
  wtinj := by
    have bound : ∀ (j : ℕ) (oj : Like ν) (q : ℕ), s.likes[j]? = some oj → oj.wt = some q →
        q < s.wm.length := by
      intro j oj q hj hp
      obtain ⟨oj', -, h2⟩ := h.likes j oj hj
      have hwt := h2.wt
      rw [hp] at hwt
      obtain ⟨w, h3, -⟩ := readWts_some hwt
      exact lt_of_some h3
    have hi : i < s.likes.length := lt_of_some ho
    intro a b oa ob q ha hb pa pb
    simp only at ha hb
    by_cases ea : i = a <;> by_cases eb : i = b
    · rw [← ea, ← eb]
    · subst ea
      rw [List.getElem?_set_self hi] at ha
      cases ha
      rw [List.getElem?_set_ne eb] at hb
      rcases hq q pa with hq' | hq'
      · exact h.wtinj i b o ob q ho hb hq' pb
      · have := bound b ob q hb pb; omega
    · subst eb
      rw [List.getElem?_set_self hi] at hb
      cases hb
      rw [List.getElem?_set_ne ea] at ha
      rcases hq q pb with hq' | hq'
      · exact h.wtinj a i oa o q ha ho pa hq'
      · have := bound a oa q ha pa; omega
    · rw [List.getElem?_set_ne ea] at ha
      rw [List.getElem?_set_ne eb] at hb
      exact h.wtinj a b oa ob q ha hb pa pb
  next := rfl
  hlen := h.hlen
  hnone := h.hnone
  hsome := h.hsome

theorem set_self {α : Type} {l : List α} {i : ℕ} {a : α} (h : l[i]? = some a) : l.set i a = l := by
  obtain ⟨h1, h2⟩ := List.getElem?_eq_some_iff.1 h
  rw [← h2, List.set_getElem_self]

/-- A new source map, and other sources. -/
theorem R.withNew {disk : F → W} {s : St F W ν} {v : Spec.St F W ν} (h : R disk s v) {i : ℕ}
    {o : Like ν} {o' : Spec.Like F W ν} (ho : s.likes[i]? = some o) (hL : LR disk s i o o')
    (ho' : v.likes[i]? = some o') (ts : List (Tree ν))
    (hts : ∀ P : ℕ → Prop, P s.next → (∀ t ∈ o.srcs, All P t) → ∀ t ∈ ts, All P t) :
    ∃ s', withNew s i o (some ts) = .ok s' ∧
      R disk s' { v with next := v.next + 1, likes := v.likes.set i { o' with srcs := ts } } := by
  unfold WtOwn.withNew newMap
  rw [hL.wt]
  refine ⟨_, rfl, ?_⟩
  rw [← h.next]
  refine h.change ho s.wm _ (s.next + 1) (Nat.le_succ _) (fun _ _ _ _ _ _ _ hw => hw) ?_ ?_ ?_
  · intro id m hid hm _
    rw [if_neg (by omega)]
    exact hm
  · intro q hq; exact Or.inl hq
  · refine ⟨rfl, hL.cur, hL.wt, ?_⟩
    refine hts _ ?_ ?_
    · exact ⟨Nat.lt_succ_self _, by simp⟩
    · intro t ht
      refine (hL.all t ht).mono ?_
      rintro id ⟨a1, a2⟩
      refine ⟨Nat.lt_succ_of_lt a1, ?_⟩
      simp only
      rw [if_neg (by omega)]
      exact a2

theorem makeWts_R {disk : F → W} {s : St F W ν} {v : Spec.St F W ν} (h : R disk s v)
    {k : Option ℕ} {f : Option F} (hk : Spec.file v k = some f)
    (hv : ∀ (m : ℕ) (x : F × Bool), k = some m → v.vars[m]? = some x → x.2 = true) :
    (k = none ∧ f = none ∧ var s k = .ok none) ∨
    ∃ m g p, k = some m ∧ f = some g ∧ v.vars[m]? = some (g, true) ∧ var s k = .ok (some p) ∧
      find s.lib g = some p ∧ s.pm[p]? = some (some (disk g)) := by
  cases k with
  | none =>
    simp only [Spec.file, Option.some.injEq] at hk
    exact Or.inl ⟨rfl, hk.symm, rfl⟩
  | some m =>
    right
    simp only [Spec.file, Option.map_eq_some_iff] at hk
    obtain ⟨x, hx, e⟩ := hk
    have := hv m x rfl hx
    obtain ⟨g, b⟩ := x
    simp only at this e
    subst this
    obtain ⟨p, h1, h2⟩ := h.vars m g hx
    exact ⟨m, g, p, rfl, e.symm, hx, by simp only [var, h1], h2, h.live g p h2⟩

/-- The change of the weights. -/
theorem R.weights {disk : F → W} {s : St F W ν} {v : Spec.St F W ν} (h : R disk s v) {i : ℕ}
    {k : Option ℕ} {o' : Spec.Like F W ν} {f : Option F} (ho' : v.likes[i]? = some o')
    (hk : Spec.file v k = some f) (hc : Spec.Careful v (.weights i k)) :
    ∃ s', setWeights s i k = .ok s' ∧
      R disk s' { v with likes := v.likes.set i ⟨f.map disk, o'.srcs, f⟩ } := by
  obtain ⟨hc1, hc2⟩ := hc
  obtain ⟨hc1, hc3⟩ := hc1 o' ho'
  obtain ⟨o, ho⟩ := ex_of_lt (l := s.likes) (k := i) (by rw [h.llen]; exact lt_of_some ho')
  obtain ⟨o'', h1, hL⟩ := h.likes i o ho
  rw [ho'] at h1
  cases h1
  have hlike : like s i = .ok o := by unfold like; rw [ho]
  have hvn : v.next = s.next := h.next.symm
  -- the call that changes nothing
  have same : ∀ (_ : o'.cur = f) (_ : o'.w = f.map disk),
      R disk s { v with likes := v.likes.set i ⟨f.map disk, o'.srcs, f⟩ } := by
    intro e1 e2
    rw [← e1] at e2 ⊢
    rw [← e2]
    rw [set_self ho']
    exact h
  -- the source maps
  have hids : ∀ (q : Option ℕ) (w : Option W) (wm : List (Option W)) (orig : Option ℕ),
      ∀ t ∈ o.srcs, All (fun id => id < s.next ∧ setWts s i o.srcs q w id = some ⟨i, q, w⟩) t := by
    intro q w wm orig t ht
    have hp := hc1 t (by rw [← hL.srcs]; exact ht)
    have hid := (hL.all t ht).id
    cases t with
    | node n c id ps =>
      simp only [Tree.parts] at hp
      subst hp
      refine .mk _ _ _ _ ⟨hid.1, ?_⟩ (by simp)
      unfold setWts
      rw [if_pos]
      exact List.mem_map.2 ⟨_, ht, rfl⟩
  have hother : ∀ (q : Option ℕ) (w : Option W) (id : ℕ) (m : SMap W), id < s.next →
      s.smap id = some m → m.like ≠ i → setWts s i o.srcs q w id = some m := by
    intro q w id m hid hm hne
    unfold setWts
    rw [if_neg]
    · exact hm
    · intro hmem
      obtain ⟨t, ht, e⟩ := List.mem_map.1 hmem
      have := (hL.all t ht).id
      rw [e, hm] at this
      obtain ⟨-, h2⟩ := this
      cases h2
      exact hne rfl
  -- the weights that were freed
  obtain ⟨wm, hfree, hlen, hwm⟩ : ∃ wm, freeWts s.wm o.wt = .ok wm ∧ wm.length = s.wm.length ∧
      ∀ (j : ℕ) (oj : Like ν) (q : ℕ) (w : W), j ≠ i → s.likes[j]? = some oj →
        oj.wt = some q → s.wm[q]? = some (some w) → wm[q]? = some (some w) := by
    have hwt := hL.wt
    cases hq : o.wt with
    | none => exact ⟨s.wm, rfl, rfl, fun _ _ _ _ _ _ _ hw => hw⟩
    | some q =>
      rw [hq] at hwt
      obtain ⟨w, h3, -⟩ := readWts_some hwt
      refine ⟨s.wm.set q none, ?_, by simp, ?_⟩
      · simp only [freeWts]; exact free_ok h3
      · intro j oj q' w' hj hoj hq' hw'
        rw [List.getElem?_set_ne]
        · exact hw'
        · intro e
          subst e
          exact hj (h.wtinj j i oj o q hoj ho hq' hq)
  rcases makeWts_R h hk hc2 with ⟨rfl, rfl, hvar⟩ | ⟨m, g, p, rfl, rfl, hm, hvar, hlib, hpm⟩
  · -- the null pointer
    unfold setWeights
    rw [hlike, Res.bind_ok, hvar, Res.bind_ok]
    by_cases e : none = o.orig
    · rw [if_pos e]
      refine ⟨s, rfl, same ?_ ?_⟩
      · rcases hL.cur with hcc | ⟨f', p', -, hp', -⟩
        · exact hcc.1
        · rw [hp'] at e; cases e
      · rcases hL.cur with hcc | ⟨f', p', -, hp', -⟩
        · rw [hc3 rfl hcc.1]; rfl
        · rw [hp'] at e; cases e
    · rw [if_neg e, hfree, Res.bind_ok]
      simp only [makeWts, Res.bind_ok, readWts]
      refine ⟨_, rfl, ?_⟩
      have := h.change (o2 := ⟨none, none, o.srcs⟩) (o2' := ⟨none, o'.srcs, none⟩) ho wm
        (setWts s i o.srcs none none) s.next (Nat.le_refl _) hwm (hother none none)
        (by intro q hq; cases hq)
        ⟨hL.srcs, Or.inl ⟨rfl, rfl⟩, rfl, hids none none wm none⟩
      rw [h.next] at this
      simpa only [Option.map_none, ← h.next] using this
  · -- a map
    unfold setWeights
    rw [hlike, Res.bind_ok, hvar, Res.bind_ok]
    by_cases e : some p = o.orig
    · rw [if_pos e]
      rcases hL.cur with hcc | ⟨f', p', hf', hp', hl', hw'⟩
      · rw [hcc.2] at e; cases e
      · rw [hp'] at e
        cases e
        have hfg := h.inj f' g p hl' hlib
        subst hfg
        exact ⟨s, rfl, same hf' (by rw [hw']; rfl)⟩
    · rw [if_neg e, hfree, Res.bind_ok]
      have hmk : makeWts { s with wm := wm } (some p) =
          .ok ({ s with wm := wm ++ [some (disk g)] }, some wm.length) := by
        simp only [makeWts, deref_ok hpm]
      have hrd : readWts (wm ++ [some (disk g)]) (some wm.length) = .ok (some (disk g)) :=
        readWts_ok (by rw [List.getElem?_append_right (Nat.le_refl _)]; simp)
      rw [hmk, Res.bind_ok]
      simp only [hrd, Res.bind_ok]
      refine ⟨_, rfl, ?_⟩
      have := h.change (o2 := ⟨some p, some wm.length, o.srcs⟩)
        (o2' := ⟨some (disk g), o'.srcs, some g⟩) ho (wm ++ [some (disk g)])
        (setWts s i o.srcs (some wm.length) (some (disk g))) s.next (Nat.le_refl _)
        (by
          intro j oj q w hj hoj hq hw
          have h4 := hwm j oj q w hj hoj hq hw
          rw [List.getElem?_append_left (lt_of_some h4)]
          exact h4)
        (hother _ _)
        (by intro q hq; cases hq; exact Or.inr (by omega))
        ⟨hL.srcs, Or.inr ⟨g, p, rfl, rfl, hlib, rfl⟩, hrd,
          hids (some wm.length) (some (disk g)) wm none⟩
      rw [h.next] at this
      simpa only [Option.map_some, ← h.next] using this

/-- A new likelihood object. -/
theorem R.append {disk : F → W} {s : St F W ν} {v : Spec.St F W ν} (h : R disk s v)
    {p q : Option ℕ} {f : Option F} {w : Option W} (wm : List (Option W))
    (hwm : ∀ (q : ℕ) (w : W), s.wm[q]? = some (some w) → wm[q]? = some (some w))
    (hq : ∀ q', q = some q' → s.wm.length ≤ q') (hr : readWts wm q = .ok w)
    (hc : (f = none ∧ p = none) ∨
      ∃ g p', f = some g ∧ p = some p' ∧ find s.lib g = some p' ∧ w = some (disk g)) :
    R disk { s with wm := wm, likes := s.likes ++ [⟨p, q, []⟩] }
      { v with likes := v.likes ++ [⟨w, [], f⟩] } := by
  have hLR : ∀ (i : ℕ) (o : Like ν) (o' : Spec.Like F W ν), LR disk s i o o' →
      LR disk { s with wm := wm, likes := s.likes ++ [⟨p, q, []⟩] } i o o' := by
    intro i o o' hL
    refine ⟨hL.srcs, hL.cur, ?_, hL.all⟩
    have hwt := hL.wt
    cases hp : o.wt with
    | none => rw [hp] at hwt; exact hwt
    | some q' =>
      rw [hp] at hwt
      obtain ⟨w', h3, h4⟩ := readWts_some hwt
      rw [h4]
      exact readWts_ok (hwm q' w' h3)
  have bound : ∀ (j : ℕ) (oj : Like ν) (q : ℕ), s.likes[j]? = some oj → oj.wt = some q →
      q < s.wm.length := by
    intro j oj q hj hp
    obtain ⟨oj', -, h2⟩ := h.likes j oj hj
    have hwt := h2.wt
    rw [hp] at hwt
    obtain ⟨w, h3, -⟩ := readWts_some hwt
    exact lt_of_some h3
  have key : ∀ (i : ℕ) (o : Like ν), (s.likes ++ [⟨p, q, []⟩])[i]? = some o →
      s.likes[i]? = some o ∨ (i = s.likes.length ∧ o = ⟨p, q, []⟩) := by
    intro i o ho
    rcases Nat.lt_trichotomy i s.likes.length with hi | hi | hi
    · rw [List.getElem?_append_left hi] at ho; exact Or.inl ho
    · subst hi
      rw [List.getElem?_append_right (Nat.le_refl _)] at ho
      simp at ho
      exact Or.inr ⟨rfl, ho.symm⟩
    · rw [List.getElem?_eq_none (by simp; omega)] at ho; cases ho
  exact {
    sorted := h.sorted
    live := h.live
    inj := h.inj
    vlen := h.vlen
    vars := h.vars
    llen := by simp [h.llen]
    likes := by
      intro i o ho
      rcases key i o ho with ho | ⟨rfl, rfl⟩
      · obtain ⟨o', h1, h2⟩ := h.likes i o ho
        refine ⟨o', ?_, hLR i o o' h2⟩
        simp only
        rw [List.getElem?_append_left (lt_of_some h1)]; exact h1
      · refine ⟨⟨w, [], f⟩, ?_, rfl, hc, hr, by simp⟩
        simp only
        rw [h.llen, List.getElem?_append_right (Nat.le_refl _)]
        simp
    wtinj := by
      intro a b oa ob q' ha hb pa pb
      rcases key a oa ha with ha | ⟨rfl, rfl⟩ <;> rcases key b ob hb with hb | ⟨rfl, rfl⟩
      · exact h.wtinj a b oa ob q' ha hb pa pb
      · have := bound a oa q' ha pa
        have := hq q' pb
        omega
      · have := bound b ob q' hb pb
        have := hq q' pa
        omega
      · rfl
    next := h.next
    hlen := h.hlen
    hnone := h.hnone
    hsome := h.hsome }

/-- Variables that are not used any more. -/
theorem R.forget {disk : F → W} {s : St F W ν} {v : Spec.St F W ν} (h : R disk s v)
    (f : Option F) : R disk s { v with vars := Spec.forget v.vars f } where
  sorted := h.sorted
  live := h.live
  inj := h.inj
  vlen := by
    cases f with
    | none => exact h.vlen
    | some f => simp [Spec.forget, h.vlen]
  vars := by
    intro k g hk
    cases f with
    | none => exact h.vars k g hk
    | some f =>
      simp only [Spec.forget, List.getElem?_map, Option.map_eq_some_iff] at hk
      obtain ⟨x, hx, e⟩ := hk
      split at e
      · cases e
      · subst e; exact h.vars k g hx
  llen := h.llen
  likes := h.likes
  wtinj := h.wtinj
  next := h.next
  hlen := h.hlen
  hnone := h.hnone
  hsome := h.hsome

end Verif.WtOwn
