import Verif.Owner.Lemmas

set_option linter.unusedSimpArgs false
set_option linter.unusedVariables false

/-!
# Maps and their projections: the properties

`C139_values_partial`: maps behave like values in every history in which no sky map is made from
a WCS counts map.  The other theorems say what happens when one is made, and what is lost.
-/

namespace Verif.Owner

open Spec (Value Values)

variable {G : Type}

/-- **Maps are values.**  For every history of making, copying, assigning, rebinning, using and
destroying maps that a client may make, in which no sky map is made of a WCS counts map: the
program runs through without touching a freed projection, and every use of a map sees the
geometry the client expects.  Missing (and false, `C139_shared_violates`): the histories with such
a sky map. -/
theorem C139_values_partial (reb : ℕ → G → G) (ops : List (Op G)) (v : Values G)
    (xs : List (Option G)) (hs : Spec.run reb [] ops = some (v, xs))
    (hn : Spec.NoShare reb [] ops) :
    ∃ s, run reb ⟨[], []⟩ ops = .ok (s, xs) := by
  obtain ⟨s, h, -⟩ := run_R reb ops R.start hs hn
  exact ⟨s, h⟩

/-- A history with a HEALPix background map, a copy, an assignment and a deletion. -/
example : ∃ v, Spec.run (G := ℕ) (fun f g => f * g) []
    [.make .map true 3, .make .map true 4, .rebin 0 2, .assign 1 2, .del 2, .use 1,
      .make .counts false 5, .bkgEff 3 2, .del 3, .use 4] =
    some (v, [none, none, none, none, none, some 6, none, none, none, some 5]) :=
  ⟨_, rfl⟩

/-- **What stays allocated.**  In the same histories the projections that are allocated are those
of the maps that exist, and one more for each rebinned map made. -/
theorem C139_leaks (reb : ℕ → G → G) (ops : List (Op G)) (v : Values G)
    (xs : List (Option G)) (hs : Spec.run reb [] ops = some (v, xs))
    (hn : Spec.NoShare reb [] ops) :
    ∃ s, run reb ⟨[], []⟩ ops = .ok (s, xs) ∧ alive s = Spec.count v + Spec.rebins ops := by
  obtain ⟨s, h, r⟩ := run_R reb ops R.start hs hn
  exact ⟨s, h, by rw [r.cnt, r.count, Nat.zero_add]⟩

example : ∃ v, Spec.run (G := ℕ) (fun f g => f * g) []
    [.make .map true 3, .rebin 0 2, .rebin 1 2, .del 0, .del 1, .del 2] =
    some (v, [none, none, none, none, none, none]) ∧ Spec.count v = 0 :=
  ⟨_, rfl, rfl⟩

/-- **Rebinning loses a projection.**  A client that destroys every map it made would expect
nothing to stay allocated; with `n` rebinned maps, `n` projections stay. -/
theorem C139_rebin_violates (reb : ℕ → G → G) (g : G) (f : ℕ) :
    ∃ (ops : List (Op G)) (v : Values G) (xs : List (Option G)) (s : St G),
      Spec.run reb [] ops = some (v, xs) ∧ Spec.count v = 0 ∧
      run reb ⟨[], []⟩ ops = .ok (s, xs) ∧ alive s = 1 := by
  refine ⟨[.make .map true g, .rebin 0 f, .del 0, .del 1], [none, none],
    [none, none, none, none], ⟨[none, some g, none], [none, none]⟩, rfl, rfl, rfl, rfl⟩

/-- The state after a history, and a WCS counts map in it. -/
theorem shared_state (reb : ℕ → G → G) {ops : List (Op G)} {v : Values G}
    {xs : List (Option G)} (hs : Spec.run reb [] ops = some (v, xs))
    (hn : Spec.NoShare reb [] ops) {i : ℕ} {g : G}
    (hi : Spec.look v i = some ⟨.counts, true, g⟩) :
    ∃ (s : St G) (p : ℕ), run reb ⟨[], []⟩ ops = .ok (s, xs) ∧ s.objs.length = v.length ∧
      s.objs[i]? = some (some ⟨.counts, true, p⟩) ∧ s.heap[p]? = some (some g) ∧
      i < s.objs.length ∧ p < s.heap.length := by
  obtain ⟨s, h, r⟩ := run_R reb ops R.start hs hn
  obtain ⟨o, ho, hg, hk, hw⟩ := r.look hi
  refine ⟨s, o.ptr, h, r.len, ?_, hg, ?_, r.bound ho⟩
  · rw [ho]
    cases o
    simp only at hk hw
    rw [hk, hw]
  · by_contra hc
    rw [List.getElem?_eq_none (by omega)] at ho
    cases ho

/-- **The sky map of a WCS counts map.**  After any such history, take a WCS counts map, make a sky
map of it, and destroy one of the two: whatever is done next with the other one - using it, copying
it, destroying it - is undefined, although all of it is what a client may do. -/
theorem C139_shared_violates (reb : ℕ → G → G) (ops : List (Op G)) (v : Values G)
    (xs : List (Option G)) (hs : Spec.run reb [] ops = some (v, xs))
    (hn : Spec.NoShare reb [] ops) (i : ℕ) (g : G)
    (hi : Spec.look v i = some ⟨.counts, true, g⟩) (a b : ℕ)
    (hab : (a = i ∧ b = v.length) ∨ (a = v.length ∧ b = i)) (op : Op G)
    (hop : op = .use b ∨ op = .copy b ∨ op = .del b) :
    (Spec.run reb [] (ops ++ [.ofCounts i, .del a, op])).isSome ∧
    run reb ⟨[], []⟩ (ops ++ [.ofCounts i, .del a, op]) = .ub := by
  obtain ⟨s, p, h, hl, ho, hg, hil, hpl⟩ := shared_state reb hs hn hi
  constructor
  · rw [spec_run_append reb ops _ hs]
    have hi' := look_some.1 hi
    have hiv : i < v.length := by rw [← hl]; exact hil
    have e1 : Spec.step reb v (.ofCounts i) = some (v ++ [some ⟨.map, true, g⟩], none) := by
      simp [Spec.step, hi]
    have lnew : Spec.look (v ++ [some (⟨.map, true, g⟩ : Value G)]) v.length =
        some ⟨.map, true, g⟩ := by
      simp [Spec.look]
    have lold : Spec.look (v ++ [some (⟨.map, true, g⟩ : Value G)]) i =
        some ⟨.counts, true, g⟩ := by
      unfold Spec.look
      rw [List.getElem?_append_left hiv, hi']; rfl
    have key : ∀ (c d : ℕ) (x y : Value G), c ≠ d →
        Spec.look (v ++ [some (⟨.map, true, g⟩ : Value G)]) c = some x →
        Spec.look (v ++ [some (⟨.map, true, g⟩ : Value G)]) d = some y →
        ∀ op : Op G, (op = .use d ∨ op = .copy d ∨ op = .del d) →
        (Spec.run reb v [.ofCounts i, .del c, op]).isSome := by
      intro c d x y hcd hc hd op hop
      have e2 : Spec.step reb (v ++ [some (⟨.map, true, g⟩ : Value G)]) (.del c) =
          some ((v ++ [some (⟨.map, true, g⟩ : Value G)]).set c none, none) := by
        simp [Spec.step, hc]
      have e3 : Spec.look ((v ++ [some (⟨.map, true, g⟩ : Value G)]).set c none) d = some y := by
        unfold Spec.look
        rw [List.getElem?_set_ne hcd]
        exact hd
      simp only [Spec.run, e1, e2, Option.bind_some]
      rcases hop with rfl | rfl | rfl <;> simp [Spec.step, e3]
    rw [Option.isSome_map]
    rcases hab with ⟨rfl, rfl⟩ | ⟨rfl, rfl⟩
    · exact key _ _ _ _ (by omega) lold lnew op hop
    · exact key _ _ _ _ (by omega) lnew lold op hop
  · rw [run_append reb ops _ h]
    have e1 : step reb s (.ofCounts i) =
        .ok (⟨s.heap, s.objs ++ [some ⟨.map, true, p⟩]⟩, none) := by
      simp only [step, ofCounts, obj_ok ho, deref_ok hg, Res.bind_ok]
    have lnew : (s.objs ++ [some (⟨.map, true, p⟩ : Obj)])[v.length]? =
        some (some ⟨.map, true, p⟩) := by
      rw [← hl]; simp
    have lold : (s.objs ++ [some (⟨.map, true, p⟩ : Obj)])[i]? =
        some (some ⟨.counts, true, p⟩) := by
      rw [List.getElem?_append_left hil]; exact ho
    have dead : (s.heap.set p none)[p]? = some none := by
      rw [List.getElem?_set_self hpl]
    have key : ∀ (c d : ℕ) (x y : Obj), c ≠ d → x.ptr = p → y.ptr = p →
        (s.objs ++ [some (⟨.map, true, p⟩ : Obj)])[c]? = some (some x) →
        (s.objs ++ [some (⟨.map, true, p⟩ : Obj)])[d]? = some (some y) →
        ∀ op : Op G, (op = .use d ∨ op = .copy d ∨ op = .del d) →
        run reb s [.ofCounts i, .del c, op] = .ub := by
      intro c d x y hcd hx hy hc hd op hop
      have e2 : step reb ⟨s.heap, s.objs ++ [some (⟨.map, true, p⟩ : Obj)]⟩ (.del c) =
          .ok (⟨s.heap.set p none, (s.objs ++ [some (⟨.map, true, p⟩ : Obj)]).set c none⟩,
            none) := by
        have := obj_ok (s := (⟨s.heap, s.objs ++ [some (⟨.map, true, p⟩ : Obj)]⟩ : St G)) hc
        simp only [step, del, this, Res.bind_ok, hx, free_ok hg]
      have e3 := obj_ok (s := (⟨s.heap.set p none,
        (s.objs ++ [some (⟨.map, true, p⟩ : Obj)]).set c none⟩ : St G)) (i := d) (o := y)
        (by simp only; rw [List.getElem?_set_ne hcd]; exact hd)
      simp only [run, e1, e2, Res.bind_ok]
      rcases hop with rfl | rfl | rfl
      · simp only [step, useProj, e3, Res.bind_ok, hy, deref_none dead, Res.bind_ub]
      · simp only [step, copy, e3, Res.bind_ok, hy, deref_none dead, Res.bind_ub]
      · simp only [step, del, e3, Res.bind_ok, hy, free_none dead, Res.bind_ub]
    have : run reb s [.ofCounts i, .del a, op] = .ub := by
      rcases hab with ⟨rfl, rfl⟩ | ⟨rfl, rfl⟩
      · exact key _ _ _ _ (by omega) rfl rfl lold lnew op hop
      · exact key _ _ _ _ (by omega) rfl rfl lnew lold op hop
    rw [this]
    rfl

example : Spec.run (G := ℕ) (fun f g => f * g) [] [.make .counts true 3] =
      some ([some ⟨.counts, true, 3⟩], [none]) ∧
    Spec.look [some (⟨.counts, true, 3⟩ : Value ℕ)] 0 = some ⟨.counts, true, 3⟩ :=
  ⟨rfl, rfl⟩

/-- **The map of the effective background.**  Making it from a WCS counts map, whatever was done
before, leaves that counts map unusable: the next use, copy or destruction of it is undefined,
although `makeBkgEffMap` is a `const` member. -/
theorem C139_background_violates (reb : ℕ → G → G) (ops : List (Op G)) (v : Values G)
    (xs : List (Option G)) (hs : Spec.run reb [] ops = some (v, xs))
    (hn : Spec.NoShare reb [] ops) (i n : ℕ) (g : G)
    (hi : Spec.look v i = some ⟨.counts, true, g⟩) (op : Op G)
    (hop : op = .use i ∨ op = .copy i ∨ op = .del i ∨ op = .bkgEff i n) :
    (Spec.run reb [] (ops ++ [.bkgEff i n, op])).isSome ∧
    run reb ⟨[], []⟩ (ops ++ [.bkgEff i n, op]) = .ub := by
  obtain ⟨s, p, h, hl, ho, hg, hil, hpl⟩ := shared_state reb hs hn hi
  constructor
  · rw [spec_run_append reb ops _ hs, Option.isSome_map]
    have hi' := look_some.1 hi
    have hiv : i < v.length := by rw [← hl]; exact hil
    have lold : Spec.look (v ++ [some (⟨.counts, true, g⟩ : Value G)]) i =
        some ⟨.counts, true, g⟩ := by
      unfold Spec.look
      rw [List.getElem?_append_left hiv, hi']; rfl
    rcases hop with rfl | rfl | rfl | rfl <;> simp [Spec.run, Spec.step, hi, lold]
  · rw [run_append reb ops _ h]
    have e1 := bkgEff_eq (n := n) ho hg rfl
    simp only [if_true] at e1
    have dead : (s.heap.set p none ++ [some g, none] ++ List.replicate n none)[p]? =
        some none := by
      rw [List.getElem?_append_left (by simp; omega), List.getElem?_append_left (by simp; omega),
        List.getElem?_set_self hpl]
    have e3 := obj_ok (s := (⟨s.heap.set p none ++ [some g, none] ++ List.replicate n none,
        s.objs ++ [some ⟨.counts, true, s.heap.length⟩]⟩ : St G)) (i := i)
        (o := ⟨.counts, true, p⟩)
        (by simp only; rw [List.getElem?_append_left hil]; exact ho)
    have : run reb s [.bkgEff i n, op] = .ub := by
      rcases hop with rfl | rfl | rfl | rfl
      · simp only [run, step, e1, useProj, e3, Res.bind_ok, deref_none dead, Res.bind_ub]
      · simp only [run, step, e1, copy, e3, Res.bind_ok, deref_none dead, Res.bind_ub]
      · simp only [run, step, e1, del, e3, Res.bind_ok, free_none dead, Res.bind_ub]
      · simp only [run, step, e1, Res.bind_ok]
        unfold bkgEff
        rw [e3]
        simp only [Res.bind_ok]
        rw [if_neg (by intro hc; cases hc), deref_none dead]
        rfl
    rw [this]
    rfl

example : Spec.run (G := ℕ) (fun f g => f * g) [] [.make .counts true 3, .copy 0] =
      some ([some ⟨.counts, true, 3⟩, some ⟨.counts, true, 3⟩], [none, none]) := rfl

/-- **The result is sound.**  The map of the effective background itself is a map with a projection
of its own, and any number of energy bands: it can be used, and shows the geometry of the counts
map, WCS or HEALPix; and so can every other map that existed before. -/
theorem C139_background (reb : ℕ → G → G) (ops : List (Op G)) (v : Values G)
    (xs : List (Option G)) (hs : Spec.run reb [] ops = some (v, xs))
    (hn : Spec.NoShare reb [] ops) (i n : ℕ) (w : Bool) (g : G)
    (hi : Spec.look v i = some ⟨.counts, w, g⟩) (j : ℕ) (x : Value G) (hji : j ≠ i)
    (hj : Spec.look v j = some x) :
    ∃ s, run reb ⟨[], []⟩ (ops ++ [.bkgEff i n, .use v.length, .use j]) =
      .ok (s, xs ++ [none, some g, some x.geom]) := by
  obtain ⟨s, h, r⟩ := run_R reb ops R.start hs hn
  obtain ⟨o, ho, hg, hk, hw⟩ := r.look hi
  obtain ⟨o', ho', hg', hk', hw'⟩ := r.look hj
  rw [run_append reb ops _ h]
  have e1 := bkgEff_eq (n := n) ho hg hk
  simp only at hg
  have hb := r.bound ho
  have hb' := r.bound ho'
  have hjl : j < s.objs.length := by
    by_contra hc
    rw [List.getElem?_eq_none (by omega)] at ho'
    cases ho'
  have hne : o.ptr ≠ o'.ptr := fun he => hji (r.inj i j o o' ho ho' he).symm
  have new : ((if o.wcs then s.heap.set o.ptr none ++ [some g, none]
      else s.heap ++ [some g, none, none]) ++ List.replicate n none)[s.heap.length]? =
      some (some g) := by
    cases o.wcs <;> simp
  have old : ((if o.wcs then s.heap.set o.ptr none ++ [some g, none]
      else s.heap ++ [some g, none, none]) ++ List.replicate n none)[o'.ptr]? =
      some (some x.geom) := by
    cases o.wcs with
    | true =>
      simp only [if_true]
      rw [List.getElem?_append_left (by simp; omega), List.getElem?_append_left (by simp; omega),
        List.getElem?_set_ne hne, hg']
    | false =>
      simp only [Bool.false_eq_true, if_false]
      rw [List.getElem?_append_left (by simp; omega), List.getElem?_append_left hb', hg']
  generalize ((if o.wcs then s.heap.set o.ptr none ++ [some g, none]
      else s.heap ++ [some g, none, none]) ++ List.replicate n none) = H at e1 new old
  have e2 := obj_ok (s := (⟨H, s.objs ++ [some ⟨.counts, o.wcs, s.heap.length⟩]⟩ : St G))
    (i := v.length) (o := ⟨.counts, o.wcs, s.heap.length⟩) (by rw [← r.len]; simp)
  have e3 := obj_ok (s := (⟨H, s.objs ++ [some ⟨.counts, o.wcs, s.heap.length⟩]⟩ : St G))
    (i := j) (o := o') (by simp only; rw [List.getElem?_append_left hjl]; exact ho')
  refine ⟨⟨H, s.objs ++ [some ⟨.counts, o.wcs, s.heap.length⟩]⟩, ?_⟩
  simp only [run, step, e1, useProj, e2, e3, Res.bind_ok, deref_ok new, deref_ok old]

example : Spec.look [some (⟨.counts, true, 3⟩ : Value ℕ), some ⟨.map, true, 4⟩] 1 =
    some ⟨.map, true, 4⟩ := rfl

end Verif.Owner
