import Mathlib.Data.Nat.Init
import Mathlib.Order.Defs.LinearOrder
import Mathlib.Order.Nat
import Verif.WtOwn.Lemmas3

set_option linter.unusedSimpArgs false
set_option linter.unusedVariables false
set_option linter.unusedSectionVars false

/-!
# Weights maps and their users: the properties

`C143_weights_partial`: in every careful history all sources are weighted by the map given last.
The other theorems say what happens when the client is not careful in one of the five ways.
-/

namespace Verif.WtOwn

open Verif.StdMap (find put erase Sorted)

variable {F W ν : Type} [LinearOrder F] [DecidableEq ν]

/-- **All sources have the weights given last.**  Several likelihood objects share weights maps
through the library of maps; sources are added, merged into composite sources and split off again;
weights are changed; objects may forget the map they were made with.  For every allocator, every
content of the files and every careful history: no map is used after it was freed, and whenever
the weighted sums of a source are used they were made with the weights given last to its likelihood
object.  Missing (and false, see the theorems below): the histories that are not careful. -/
theorem C143_weights_partial (disk : F → W) (al : List Bool → ℕ) (hal : Good al)
    (ops : List (Op F ν)) (v : Spec.St F W ν) (xs : List (Option (Option W)))
    (hs : Spec.run disk Spec.St.empty ops = some (v, xs))
    (hc : Spec.AllCareful disk Spec.St.empty ops) :
    ∃ s, run disk al St.empty ops = .ok (s, xs) := by
  obtain ⟨s, h, -⟩ := run_R hal ops (R.start disk) hs hc
  exact ⟨s, h⟩

/-- The addresses one after the other, and the lowest free address. -/
example : Good (fun occ => occ.length) ∧ Good (fun occ => occ.findIdx (fun b => !b)) := by
  refine ⟨fun occ => ⟨Nat.le_refl _, by simp⟩, fun occ => ⟨List.findIdx_le_length, ?_⟩⟩
  intro h
  obtain ⟨h1, h2⟩ := List.getElem?_eq_some_iff.1 h
  have := List.findIdx_getElem (w := h1)
  rw [h2] at this
  cases this

/-- A careful history: the second object forgets its map, the first one gets another one before
its sources are merged and split. -/
example (disk : ℕ → W) : ∃ v, Spec.run (ν := ℕ) disk Spec.St.empty
    [.get 0, .new (some 0) false, .add 0 7, .get 1, .weights 0 (some 1), .new (some 0) true,
      .add 0 8, .merge 0 9 [7, 8], .split 0 9, .sums 0 7, .get 0, .add 1 7, .sums 1 7] =
      some (v, [none, none, none, none, none, none, none, none, none, some (some (disk 1)), none,
        none, some (some (disk 0))]) ∧
    Spec.AllCareful (ν := ℕ) disk Spec.St.empty
    [.get 0, .new (some 0) false, .add 0 7, .get 1, .weights 0 (some 1), .new (some 0) true,
      .add 0 8, .merge 0 9 [7, 8], .split 0 9, .sums 0 7, .get 0, .add 1 7, .sums 1 7] := by
  refine ⟨_, rfl, ?_⟩
  simp [Spec.AllCareful, Spec.Careful, Spec.step, Spec.St.empty, Spec.file, insert, look, mergeT,
    pickAll, pick, splitT, insertAll, Tree.name, Tree.parts, Tree.comp]
  rintro k a rfl
  simp

/-- **The map for a range of phases.**  After every careful history in which no object with such a
map is destroyed, each of them sees the content of its file. -/
theorem C143_phase_partial (disk : F → W) (al : List Bool → ℕ) (hal : Good al)
    (ops : List (Op F ν)) (v : Spec.St F W ν) (xs : List (Option (Option W)))
    (hs : Spec.run disk Spec.St.empty ops = some (v, xs))
    (hc : Spec.AllCareful disk Spec.St.empty ops) (k : ℕ) (f : F)
    (hk : v.helpers[k]? = some (some (some f))) :
    ∃ s s', run disk al St.empty ops = .ok (s, xs) ∧
      step disk al s (.phase k) = .ok (s', some (some (disk f))) := by
  obtain ⟨s, h, r⟩ := run_R hal ops (R.start disk) hs hc
  obtain ⟨s', h', -⟩ := step_R (op := .phase k) hal r (v' := v) (x := some (some (disk f)))
    (by simp only [Spec.step, hk]; rfl) trivial
  exact ⟨s, s', h, h'⟩

example (disk : ℕ → W) : ∃ v, Spec.run (ν := ℕ) disk Spec.St.empty
    [.helper (some 3), .helper none, .endHelper 1] = some (v, [none, none, none]) ∧
    v.helpers[0]? = some (some (some 3)) ∧ Spec.AllCareful (ν := ℕ) disk Spec.St.empty
    [.helper (some 3), .helper none, .endHelper 1] := by
  refine ⟨_, rfl, rfl, ?_⟩
  simp [Spec.AllCareful, Spec.Careful, Spec.step, Spec.St.empty]

theorem spec_append (disk : F → W) (xs ys : List (Op F ν)) (v v' v'' : Spec.St F W ν)
    (as bs : List (Option (Option W))) (h : Spec.run disk v xs = some (v', as))
    (h' : Spec.run disk v' ys = some (v'', bs)) :
    Spec.run disk v (xs ++ ys) = some (v'', as ++ bs) := by
  induction xs generalizing v as with
  | nil =>
    simp only [Spec.run, Option.some.injEq, Prod.mk.injEq] at h
    obtain ⟨rfl, rfl⟩ := h
    exact h'
  | cons x xs ih =>
    simp only [List.cons_append, Spec.run] at h ⊢
    cases hx : Spec.step disk v x with
    | none => rw [hx] at h; cases h
    | some r =>
      obtain ⟨v1, a⟩ := r
      rw [hx] at h
      simp only [Option.map_eq_some_iff] at h
      obtain ⟨⟨v2, as'⟩, h1, e⟩ := h
      simp only [Prod.mk.injEq] at e
      obtain ⟨rfl, rfl⟩ := e
      simp only
      rw [ih v1 as' h1]
      rfl

/-- **A map that was forgotten.**  After any careful history, a client that makes two likelihood
objects with the weights map in one of its variables, the first with `no_cached_weightmaps`, uses
a map that was freed. -/
theorem C143_forgotten_violates (disk : F → W) (al : List Bool → ℕ) (hal : Good al)
    (ops : List (Op F ν)) (v : Spec.St F W ν) (xs : List (Option (Option W)))
    (hs : Spec.run disk Spec.St.empty ops = some (v, xs))
    (hc : Spec.AllCareful disk Spec.St.empty ops) (k : ℕ) (f : F) (d : Bool)
    (hk : v.vars[k]? = some (f, true)) (hn : Spec.Careful v (.new (some k) true)) :
    (∃ v', Spec.run disk Spec.St.empty (ops ++ [.new (some k) true, .new (some k) d]) =
      some (v', xs ++ [none, none])) ∧
    run disk al St.empty (ops ++ [.new (some k) true, .new (some k) d]) = .ub := by
  constructor
  · have hk' : (Spec.forget v.vars (some f))[k]? = some (f, false) := by
      simp only [Spec.forget, List.getElem?_map, hk, Option.map_some, if_true]
    have e : ∃ v', Spec.run disk v [.new (some k) true, .new (some k) d] =
        some (v', [none, none]) := by
      simp only [Spec.run, Spec.step, Spec.file, hk, Option.map_some, if_true, hk']
      exact ⟨_, rfl⟩
    obtain ⟨v', e⟩ := e
    exact ⟨v', spec_append disk ops _ _ _ _ _ _ hs e⟩
  · obtain ⟨s, h, r⟩ := run_R hal ops (R.start disk) hs hc
    obtain ⟨p, hp, hl⟩ := r.vars k f hk
    have hpm := r.live f p hl
    have hfind : s.lib.find? (fun x => x.2 == p) = some (f, p) := by
      cases hf : s.lib.find? (fun x => x.2 == p) with
      | none =>
        rw [List.find?_eq_none] at hf
        exact absurd (by simp) (hf _ (StdMap.find_some_mem hl))
      | some x =>
        have h1 := List.find?_some hf
        have h2 := List.mem_of_find?_eq_some hf
        obtain ⟨g', p'⟩ := x
        simp only [beq_iff_eq] at h1
        subst h1
        rw [r.inj g' f p' (StdMap.find_of_mem r.sorted h2) hl]
    have hd : deref (s.pm.set p none) p = (.ub : Res W) := by
      unfold deref
      rw [List.getElem?_set_self (lt_of_some hpm)]
    rw [run_append, h, Res.bind_ok]
    simp only [run, step, newLike, var, hp, makeWts, deref_ok hpm, Res.bind_ok, if_true, dropOrig,
      hfind, free_ok hpm, hd]
    rfl

example (disk : ℕ → W) : ∃ v, Spec.run (ν := ℕ) disk Spec.St.empty [.get 3] = some (v, [none]) ∧
    v.vars[0]? = some (3, true) ∧ Spec.Careful v (.new (some 0) true) := by
  refine ⟨_, rfl, rfl, ?_⟩
  simp [Spec.Careful, Spec.St.empty]

/-- **Weights that cannot be taken away.**  After any careful history, an object that has forgotten
its map keeps its weights when it is told to have none. -/
theorem C143_taken_violates (disk : F → W) (al : List Bool → ℕ) (hal : Good al)
    (ops : List (Op F ν)) (v : Spec.St F W ν) (xs : List (Option (Option W)))
    (hs : Spec.run disk Spec.St.empty ops = some (v, xs))
    (hc : Spec.AllCareful disk Spec.St.empty ops) (k : ℕ) (f : F) (n : ν)
    (hk : v.vars[k]? = some (f, true)) (hn : Spec.Careful v (.new (some k) true)) :
    (∃ v', Spec.run disk v
      [.new (some k) true, .weights v.likes.length none, .add v.likes.length n,
        .sums v.likes.length n] = some (v', [none, none, none, some none])) ∧
    ∃ s s', run disk al St.empty ops = .ok (s, xs) ∧ run disk al s
      [.new (some k) true, .weights v.likes.length none, .add v.likes.length n,
        .sums v.likes.length n] = .ok (s', [none, none, none, some (some (disk f))]) := by
  constructor
  · simp [Spec.run, Spec.step, Spec.file, hk, insert, look, Tree.name]
  · obtain ⟨s, h, r⟩ := run_R hal ops (R.start disk) hs hc
    obtain ⟨s1, h1, r1⟩ := step_R (op := .new (some k) true) hal r (x := none)
      (v' := { v with
        vars := Spec.forget v.vars (some f)
        likes := v.likes ++ [⟨some (disk f), [], none⟩] })
      (by simp only [Spec.step, Spec.file, hk, Option.map_some, if_true]) hn
    have hlook : (v.likes ++ [⟨some (disk f), [], none⟩])[v.likes.length]? =
        some (⟨some (disk f), [], none⟩ : Spec.Like F W ν) := by
      rw [List.getElem?_append_right (Nat.le_refl _)]; simp
    obtain ⟨o, ho, ho2, hL⟩ := like_ok r1 hlook
    have horig : o.orig = none := by
      rcases hL.cur with hcc | ⟨f', p', hf', -⟩
      · exact hcc.2
      · cases hf'
    have h2 : step disk al s1 (.weights v.likes.length none) = .ok (s1, none) := by
      simp only [step, setWeights, ho2, Res.bind_ok, var, horig, if_true]
    have hmid : Spec.run disk { v with
        vars := Spec.forget v.vars (some f)
        likes := v.likes ++ [⟨some (disk f), [], none⟩] }
        [.add v.likes.length n, .sums v.likes.length n] =
        some ({ v with
          vars := Spec.forget v.vars (some f)
          likes := (v.likes ++ [(⟨some (disk f), [], none⟩ : Spec.Like F W ν)]).set v.likes.length
            ⟨some (disk f), [.node n false v.next []], none⟩
          next := v.next + 1 }, [none, some (some (disk f))]) := by
      simp [Spec.run, Spec.step, insert, look, Tree.name]
    obtain ⟨s2, h3, -⟩ := run_R hal [.add v.likes.length n, .sums v.likes.length n] r1 hmid
      ⟨trivial, fun _ _ _ => ⟨trivial, fun _ _ _ => trivial⟩⟩
    refine ⟨s, s2, h, ?_⟩
    rw [run, h1, Res.bind_ok]
    simp only
    rw [run, h2, Res.bind_ok]
    simp only [h3, Res.bind_ok]

theorem good_two {al : List Bool → ℕ} (hal : Good al) : al [] = 0 ∧ al [true] = 1 := by
  constructor
  · have := (hal []).1
    simpa using this
  · obtain ⟨h1, h2⟩ := hal [true]
    generalize al [true] = a at h1 h2
    simp only [List.length_cons, List.length_nil] at h1
    match a, h1, h2 with
    | 0, _, h2 => exact absurd rfl h2
    | 1, _, _ => rfl

/-- **Parts of a composite source.**  The weights of a likelihood object are changed while two of
its sources are merged.  Once they are split off again, the first one is still summed with the old
weights; and when its sums are made again, they are read from a map that was freed.  So it is for
every allocator and every content of the two weights maps. -/
theorem C143_composite_violates (disk : ℕ → W) (al : List Bool → ℕ) (hal : Good al) :
    (∃ v, Spec.run (ν := ℕ) disk Spec.St.empty
      [.get 0, .get 1, .new (some 0) false, .add 0 7, .add 0 8, .merge 0 9 [7, 8],
        .weights 0 (some 1), .split 0 9, .sums 0 7] =
      some (v, [none, none, none, none, none, none, none, none, some (some (disk 1))])) ∧
    (∃ s, run (ν := ℕ) disk al St.empty
      [.get 0, .get 1, .new (some 0) false, .add 0 7, .add 0 8, .merge 0 9 [7, 8],
        .weights 0 (some 1), .split 0 9, .sums 0 7] =
      .ok (s, [none, none, none, none, none, none, none, none, some (some (disk 0))])) ∧
    run (ν := ℕ) disk al St.empty
      [.get 0, .get 1, .new (some 0) false, .add 0 7, .add 0 8, .merge 0 9 [7, 8],
        .weights 0 (some 1), .split 0 9, .image 0 7] = .ub := by
  obtain ⟨h0, h1⟩ := good_two hal
  refine ⟨⟨_, rfl⟩, ?_, ?_⟩
  · simp [run, step, St.empty, fetch, find, put, h0, h1, newLike, var, makeWts, deref, like, withNew,
      newMap, readWts, insert, look, Tree.name, Tree.id, Tree.parts, Tree.comp, mergeT, pickAll, pick,
      setWeights, freeWts, free, setWts, splitT, insertAll, mapOf, Res.bind_ok]
  · simp [run, step, St.empty, fetch, find, put, h0, h1, newLike, var, makeWts, deref, like, withNew,
      newMap, readWts, insert, look, Tree.name, Tree.id, Tree.parts, Tree.comp, mergeT, pickAll, pick,
      setWeights, freeWts, free, setWts, splitT, insertAll, mapOf, Res.bind_ok]

example : Good (fun occ => occ.length) := fun occ => ⟨Nat.le_refl _, by simp⟩

/-- **An address used again.**  Two objects have the same weights map, the second one forgets it,
and another map is read to the address that became free: the first object takes it for the map it
has and keeps the old weights. -/
theorem C143_reused_violates (disk : ℕ → W) (al : List Bool → ℕ) (hal : Good al)
    (hr : al [false] = 0) :
    (∃ v, Spec.run (ν := ℕ) disk Spec.St.empty
      [.get 0, .new (some 0) false, .new (some 0) true, .get 1, .weights 0 (some 1), .add 0 7,
        .sums 0 7] = some (v, [none, none, none, none, none, none, some (some (disk 1))])) ∧
    ∃ s, run (ν := ℕ) disk al St.empty
      [.get 0, .new (some 0) false, .new (some 0) true, .get 1, .weights 0 (some 1), .add 0 7,
        .sums 0 7] = .ok (s, [none, none, none, none, none, none, some (some (disk 0))]) := by
  obtain ⟨h0, h1⟩ := good_two hal
  refine ⟨⟨_, rfl⟩, ?_⟩
  simp [run, step, St.empty, fetch, find, put, erase, h0, h1, hr, newLike, var, makeWts, deref, like,
    withNew, newMap, readWts, insert, look, Tree.name, Tree.id, dropOrig, free, setWeights, mapOf,
    Res.bind_ok]

example : Good (fun occ => occ.findIdx (fun b => !b)) ∧
    (fun occ : List Bool => occ.findIdx (fun b => !b)) [false] = 0 := by
  refine ⟨fun occ => ⟨List.findIdx_le_length, ?_⟩, rfl⟩
  intro h
  obtain ⟨h1, h2⟩ := List.getElem?_eq_some_iff.1 h
  have := List.findIdx_getElem (w := h1)
  rw [h2] at this
  cases this

/-- **The map for a range of phases is freed, but stays in the library.**  After any careful
history: an object with such a map is made and destroyed, and another one is made with the same
file.  The map of the second one is the freed one. -/
theorem C143_phase_violates (disk : F → W) (al : List Bool → ℕ) (hal : Good al)
    (ops : List (Op F ν)) (v : Spec.St F W ν) (xs : List (Option (Option W)))
    (hs : Spec.run disk Spec.St.empty ops = some (v, xs))
    (hc : Spec.AllCareful disk Spec.St.empty ops) (f : F) :
    (∃ v', Spec.run disk Spec.St.empty (ops ++ [.helper (some f), .endHelper v.helpers.length,
      .helper (some f), .phase (v.helpers.length + 1)]) =
        some (v', xs ++ [none, none, none, some (some (disk f))])) ∧
    run disk al St.empty (ops ++ [.helper (some f), .endHelper v.helpers.length,
      .helper (some f), .phase (v.helpers.length + 1)]) = .ub := by
  constructor
  · have e : ∃ v', Spec.run disk v [.helper (some f), .endHelper v.helpers.length,
        .helper (some f), .phase (v.helpers.length + 1)] =
        some (v', [none, none, none, some (some (disk f))]) := by
      simp [Spec.run, Spec.step]
    obtain ⟨v', e⟩ := e
    exact ⟨v', spec_append disk ops _ _ _ _ _ _ hs e⟩
  · obtain ⟨s, h, r⟩ := run_R hal ops (R.start disk) hs hc
    obtain ⟨r1, hl, -, hh⟩ := r.fetch hal f
    generalize hs1 : fetch disk al s f = x at r1 hl hh
    obtain ⟨s1, p⟩ := x
    simp only at r1 hl hh
    have hpm := r1.live f p hl
    have hd : deref (s1.pm.set p none) p = (.ub : Res W) := by
      unfold deref
      rw [List.getElem?_set_self (lt_of_some hpm)]
    have e1 : (s.helpers ++ [some (some p)])[v.helpers.length]? = some (some (some p)) := by
      rw [← r.hlen, List.getElem?_append_right (Nat.le_refl _)]; simp
    have e2 : ((s.helpers ++ [some (some p)]).set v.helpers.length none ++
        [some (some p)])[v.helpers.length + 1]? = some (some (some p)) := by
      rw [List.getElem?_append_right (by simp [r.hlen])]
      simp [r.hlen]
    have hf2 : ∀ (hp : List (Option (Option ℕ))) (q : List (Option W)),
        fetch disk al { s1 with pm := q, helpers := hp } f =
          ({ s1 with pm := q, helpers := hp }, p) := by
      intro hp q
      simp only [fetch, hl]
    rw [run_append, h, Res.bind_ok]
    simp only [run, step, hs1, Res.bind_ok, e1, free_ok hpm, hf2, e2, hd]
    rfl

example (disk : ℕ → W) : ∃ v, Spec.run (ν := ℕ) disk Spec.St.empty [.get 3, .helper (some 3)] =
    some (v, [none, none]) ∧ Spec.AllCareful (ν := ℕ) disk Spec.St.empty [.get 3, .helper (some 3)] := by
  refine ⟨_, rfl, ?_⟩
  simp [Spec.AllCareful, Spec.Careful]

end Verif.WtOwn
