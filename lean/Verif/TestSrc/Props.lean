import Verif.TestSrc.Lemmas
import Verif.TsScan.Props
import Verif.Newton.Props

set_option linter.unusedSimpArgs false
set_option linter.unusedVariables false

/-!
# C140: the test source of a scan
-/

namespace Verif.TestSrc

open Spec (Values)

variable {N D : Type} [DecidableEq N]

/-- C140, in part: as long as the names of test sources and those of the model are kept apart, every
history of calls shows what the client expects: the test source last chosen, and the model as the
client made it. -/
theorem C140_values_partial (n : N) (ops : List (Op N D))
    (hc : Spec.CalmRun (Spec.init n) ops) :
    ∃ s, run (init n) ops = some (s, (Spec.run (Spec.init n) ops).2) := by
  obtain ⟨s, h, -⟩ := run_R ops (R.start n) hc
  exact ⟨s, h⟩

/-- A calm history: a source is added, a test source is made and used, the one of the model is
chosen and used, and both can be looked at. -/
example : Spec.CalmRun (Spec.init 0 : Values ℕ ℕ)
      [.add 1 10, .powerlaw 20, .use, .byName 1, .use, .add 2 30, .give 1 40 false, .use, .ask 1] ∧
    (Spec.run (Spec.init 0 : Values ℕ ℕ)
      [.add 1 10, .powerlaw 20, .use, .byName 1, .use, .add 2 30, .give 1 40 false, .use, .ask 1]).2 =
      [.nothing, .nothing, .saw 20, .nothing, .saw 10, .nothing, .nothing, .saw 40, .saw 10] := by
  constructor
  · simp [Spec.CalmRun, Spec.Calm, Spec.step, Spec.init, Function.update]
  · simp [Spec.run, Spec.step, Spec.init, Function.update]

/-- C140 violated: when the model has a source with the name of the test source, for instance
because the test source was chosen by its name, then choosing another test source deletes that source
from the model, for each of the ways to choose, where the client expects to find it unchanged. -/
theorem C140_deleted_violates (n : N) (ops : List (Op N D)) (d : D)
    (hc : Spec.CalmRun (Spec.init n) ops) :
    let v := (Spec.run (Spec.init n) ops).1
    let xs := (Spec.run (Spec.init n) ops).2
    v.model v.name = some d → ∀ op,
      ((∃ x, op = .powerlaw x) ∨ (∃ m x o, m ≠ v.name ∧ op = .give m x o) ∨
        (∃ m, m ≠ v.name ∧ v.model m ≠ none ∧ op = .byName m)) →
      (∃ s, run (init n) (ops ++ [op, .ask v.name]) = some (s, xs ++ [.nothing, .failed])) ∧
      (Spec.run (Spec.init n) (ops ++ [op, .ask v.name])).2 = xs ++ [.nothing, .saw d] := by
  intro v xs hv op hop
  obtain ⟨s, hs, hR⟩ := run_R ops (R.start n) hc
  obtain ⟨hp, e, hl, keep, -⟩ := hR.replace
  have hn : s.name = v.name := hR.name
  constructor
  · rw [run_append ops _ hs]
    have key : ∃ s', step s op = some (s', .nothing) ∧ s'.model s.name = none := by
      rcases hop with ⟨x, rfl⟩ | ⟨m, x, o, hm, rfl⟩ | ⟨m, hm, hmv, rfl⟩
      · refine ⟨newTest { s with heap := hp, model := Function.update s.model s.name none }
          s.name x true, ?_, ?_⟩
        · simp only [step]
          rw [Option.bind_eq_some_iff] at e ⊢
          obtain ⟨s1, e1, e2⟩ := e
          exact ⟨s1, e1, by rw [e2]; rfl⟩
        · simp [newTest]
      · refine ⟨newTest { s with heap := hp, model := Function.update s.model s.name none }
          m x o, ?_, ?_⟩
        · simp only [step]
          rw [if_neg (by rw [hn]; exact fun he => hm he.symm), e]
          rfl
        · simp [newTest]
      · obtain ⟨dm, hdm⟩ := Option.ne_none_iff_exists'.1 hmv
        obtain ⟨q, hq, -⟩ := hR.present hdm
        refine ⟨⟨hp, Function.update s.model s.name none, some q, false, m⟩, ?_, by simp⟩
        simp only [step]
        rw [if_neg (by rw [hn]; exact fun he => hm he.symm)]
        rw [Option.bind_eq_some_iff] at e
        obtain ⟨s1, e1, e2⟩ := e
        rw [e1]
        simp only [Option.bind_some, e2, Option.map_some]
        rw [Function.update_of_ne (by rw [hn]; exact hm), hq]
    obtain ⟨s', h1, h2⟩ := key
    refine ⟨s', ?_⟩
    simp only [run, h1, Option.bind_some]
    rw [← hn]
    simp only [step, h2, Option.bind_some, Option.map_some]
    rfl
  · rw [(spec_run_append ops _ _).2]
    have hv' : v.model v.name = some d := hv
    have key : (Spec.step v op).2 = .nothing ∧ (Spec.step v op).1.model = v.model := by
      rcases hop with ⟨x, rfl⟩ | ⟨m, x, o, hm, rfl⟩ | ⟨m, hm, hmv, rfl⟩
      · exact ⟨rfl, rfl⟩
      · exact ⟨rfl, rfl⟩
      · obtain ⟨dm, hdm⟩ := Option.ne_none_iff_exists'.1 hmv
        simp only [Spec.step, hdm, and_self]
    show xs ++ (Spec.run v [op, .ask v.name]).2 = _
    have hask : ∀ u : Values N D, u.model v.name = some d →
        (Spec.step u (.ask v.name)).2 = .saw d := by
      intro u hu
      simp only [Spec.step, hu]
    simp only [Spec.run, key.1, hask _ (by rw [key.2]; exact hv')]

/-- Such a history: the test source is the first of two sources of the model. -/
example :
    let ops : List (Op ℕ ℕ) := [.add 1 10, .add 2 20, .byName 1]
    Spec.CalmRun (Spec.init 0) ops ∧
      (Spec.run (Spec.init 0) ops).1.model (Spec.run (Spec.init 0) ops).1.name = some 10 ∧
      2 ≠ (Spec.run (Spec.init 0) ops).1.name ∧ (Spec.run (Spec.init 0) ops).1.model 2 ≠ none := by
  simp [Spec.CalmRun, Spec.Calm, Spec.step, Spec.init, Function.update, Spec.run]

/-- C140 violated: choosing a test source by a name that is not in the model fails, but only after
the test source there was has been destroyed: it cannot be used any more, although the failing call
should have changed nothing. -/
theorem C140_missing_violates (n : N) (ops : List (Op N D)) (d : D) (m : N)
    (hc : Spec.CalmRun (Spec.init n) ops) :
    let v := (Spec.run (Spec.init n) ops).1
    let xs := (Spec.run (Spec.init n) ops).2
    v.test = some d → v.own = true → m ≠ v.name → v.model m = none →
      (∃ s, run (init n) (ops ++ [.byName m]) = some (s, xs ++ [.failed])) ∧
      run (init n) (ops ++ [.byName m, .use]) = none ∧
      (Spec.run (Spec.init n) (ops ++ [.byName m, .use])).2 = xs ++ [.failed, .saw d] := by
  intro v xs ht ho hm hmv
  obtain ⟨s, hs, hR⟩ := run_R ops (R.start n) hc
  obtain ⟨hp, e, hl, keep, dead⟩ := hR.replace
  have hn : s.name = v.name := hR.name
  obtain ⟨t, hst, -⟩ := hR.chosen ht
  have hdead := dead (hR.own.trans ho) t hst
  have h1 : step s (.byName m) = some (⟨hp, Function.update s.model s.name none, some t, false, m⟩,
      .failed) := by
    simp only [step]
    rw [if_neg (by rw [hn]; exact fun he => hm he.symm)]
    rw [Option.bind_eq_some_iff] at e
    obtain ⟨s1, e1, e2⟩ := e
    rw [e1]
    simp only [Option.bind_some, e2, Option.map_some]
    rw [Function.update_of_ne (by rw [hn]; exact hm), hR.absent hmv, hst]
  refine ⟨?_, ?_, ?_⟩
  · rw [run_append ops _ hs]
    refine ⟨⟨hp, Function.update s.model s.name none, some t, false, m⟩, ?_⟩
    simp only [run, h1, Option.bind_some, Option.map_some]
    rfl
  · rw [run_append ops _ hs]
    simp only [run, h1, Option.bind_some]
    simp only [step, deref_dead hdead, Option.map_none, Option.bind_none]
  · rw [(spec_run_append ops _ _).2]
    have hmv' : v.model m = none := hmv
    have ht' : v.test = some d := ht
    show xs ++ (Spec.run v [.byName m, .use]).2 = _
    simp only [Spec.run, Spec.step, hmv', ht']

/-- Such a history: a misspelt name after a test source was made. -/
example :
    let ops : List (Op ℕ ℕ) := [.add 1 10, .powerlaw 20]
    Spec.CalmRun (Spec.init 0) ops ∧ (Spec.run (Spec.init 0) ops).1.test = some 20 ∧
      (Spec.run (Spec.init 0) ops).1.own = true ∧ 5 ≠ (Spec.run (Spec.init 0) ops).1.name ∧
      (Spec.run (Spec.init 0) ops).1.model 5 = none := by
  simp [Spec.CalmRun, Spec.Calm, Spec.step, Spec.init, Function.update, Spec.run]

/-- C140 violated: when the client has added a source with the name of the test source the scanner
made, and chooses it by name, the scanner still takes it for its own; the next test source that is
made destroys it twice. -/
theorem C140_twice_violates (n : N) (ops : List (Op N D)) (d x : D)
    (hc : Spec.CalmRun (Spec.init n) ops) :
    let v := (Spec.run (Spec.init n) ops).1
    let xs := (Spec.run (Spec.init n) ops).2
    v.own = true → v.model v.name = some d →
      (∃ s, run (init n) (ops ++ [.byName v.name, .use]) = some (s, xs ++ [.nothing, .saw d])) ∧
      run (init n) (ops ++ [.byName v.name, .powerlaw x]) = none := by
  intro v xs ho hv
  obtain ⟨s, hs, hR⟩ := run_R ops (R.start n) hc
  have hn : s.name = v.name := hR.name
  have hso : s.owned = true := hR.own.trans ho
  obtain ⟨p, hp, hpd⟩ := hR.present hv
  have h1 : step s (.byName v.name) = some ({ s with test := some p }, .nothing) := by
    simp only [step]
    rw [if_pos hn]
    have hp' : s.model v.name = some p := hp
    simp only [Option.bind_some, hp']
  constructor
  · rw [run_append ops _ hs]
    refine ⟨{ s with test := some p }, ?_⟩
    simp only [run, h1, Option.bind_some]
    simp only [step, deref_some.2 hpd, Option.map_some, Option.bind_some]
    rfl
  · rw [run_append ops _ hs]
    simp only [run, h1, Option.bind_some]
    have hp' : s.model s.name = some p := by rw [hn]; exact hp
    have hd : (s.heap.set p none)[p]? = some none := List.getElem?_set_self (lt_of_some hpd)
    simp only [step, dropFromModel, hp', free_ok hpd, Option.map_some, Option.bind_some, freeOwned,
      hso, if_true, free_dead hd, Option.map_none, Option.bind_none]

/-- Such a history. -/
example :
    let ops : List (Op ℕ ℕ) := [.powerlaw 20, .add 0 10]
    Spec.CalmRun (Spec.init 0) ops ∧ (Spec.run (Spec.init 0) ops).1.own = true ∧
      (Spec.run (Spec.init 0) ops).1.model (Spec.run (Spec.init 0) ops).1.name = some 10 := by
  simp [Spec.CalmRun, Spec.Calm, Spec.step, Spec.init, Function.update, Spec.run]

/-- C140 violated: a test source that was chosen by name is the model's own object: once it is
taken out of the model it cannot be used any more, where the client expects it to be kept. -/
theorem C140_removed_violates (n : N) (ops : List (Op N D)) (d : D) (m : N)
    (hc : Spec.CalmRun (Spec.init n) (ops ++ [.byName m])) :
    let v := (Spec.run (Spec.init n) (ops ++ [.byName m])).1
    let xs := (Spec.run (Spec.init n) (ops ++ [.byName m])).2
    v.model m = some d → v.test = some d → v.own = false → v.name = m →
      (run (init n) ((ops ++ [.byName m]) ++ [.remove m])).isSome = true ∧
      run (init n) ((ops ++ [.byName m]) ++ [.remove m, .use]) = none ∧
      (Spec.run (Spec.init n) ((ops ++ [.byName m]) ++ [.remove m, .use])).2 =
        xs ++ [.nothing, .saw d] := by
  intro v xs hv ht ho hm
  -- the state before the source is chosen
  have hc1 : Spec.CalmRun (Spec.init n) ops ∧ Spec.Calm (Spec.run (Spec.init n) ops).1 (.byName m) := by
    clear hv ht ho hm v xs
    generalize (Spec.init n : Values N D) = v0 at hc ⊢
    induction ops generalizing v0 with
    | nil => exact ⟨trivial, hc.1⟩
    | cons op ops ih => exact ⟨⟨hc.1, (ih _ hc.2).1⟩, (ih _ hc.2).2⟩
  obtain ⟨s, hs, hR⟩ := run_R ops (R.start n) hc1.1
  obtain ⟨hne, habs, hpres⟩ := hc1.2
  obtain ⟨dm, hdm⟩ := Option.ne_none_iff_exists'.1 hpres
  obtain ⟨p, hp, hpd⟩ := hR.present hdm
  obtain ⟨hh, e, hl, keep, -⟩ := hR.replace
  have hn : s.name ≠ m := by rw [hR.name]; exact fun he => hne he.symm
  have h1 : step s (.byName m) = some
      (⟨hh, Function.update s.model s.name none, some p, false, m⟩, .nothing) := by
    simp only [step]
    rw [if_neg hn]
    rw [Option.bind_eq_some_iff] at e
    obtain ⟨s1, e1, e2⟩ := e
    rw [e1]
    simp only [Option.bind_some, e2, Option.map_some]
    rw [Function.update_of_ne (Ne.symm hn), hp]
  have hpd' := keep m p dm (Ne.symm hn) hp hpd
  have hm' : (Function.update s.model s.name none) m = some p := by
    rw [Function.update_of_ne (Ne.symm hn), hp]
  have h2 : step (⟨hh, Function.update s.model s.name none, some p, false, m⟩ : St N D) (.remove m)
      = some (⟨hh.set p none, Function.update (Function.update s.model s.name none) m none, some p,
        false, m⟩, .nothing) := by
    simp only [step, hm', dropFromModel, free_ok hpd', Option.map_some]
  have hdead : (hh.set p none)[p]? = some none := List.getElem?_set_self (lt_of_some hpd')
  refine ⟨?_, ?_, ?_⟩
  · rw [List.append_assoc, run_append ops _ hs]
    simp only [List.cons_append, List.nil_append, run, h1, h2, Option.bind_some, Option.map_some,
      Option.isSome_some]
  · rw [List.append_assoc, run_append ops _ hs]
    simp only [List.cons_append, List.nil_append, run, h1, h2, Option.bind_some]
    simp only [step, deref_dead hdead, Option.map_none, Option.bind_none]
  · rw [(spec_run_append (ops ++ [Op.byName m]) [Op.remove m, Op.use] (Spec.init n)).2]
    have hv' : v.model m = some d := hv
    have ht' : v.test = some d := ht
    show xs ++ (Spec.run v [.remove m, .use]).2 = _
    simp only [Spec.run, Spec.step, hv', ht']

/-- Such a history. -/
example :
    let ops : List (Op ℕ ℕ) := [.add 1 10] ++ [.byName 1]
    Spec.CalmRun (Spec.init 0) ops ∧ (Spec.run (Spec.init 0) ops).1.model 1 = some 10 ∧
      (Spec.run (Spec.init 0) ops).1.test = some 10 ∧ (Spec.run (Spec.init 0) ops).1.own = false ∧
      (Spec.run (Spec.init 0) ops).1.name = 1 := by
  simp [Spec.CalmRun, Spec.Calm, Spec.step, Spec.init, Function.update, Spec.run]

/-- C140 violated: each further point source leaves the one before allocated, in every history. -/
theorem C140_leaks_violates (n : N) (ops : List (Op N D)) (s : St N D) (xs : List (Obs D)) (d : D)
    (k : ℕ) (h : run (init n) ops = some (s, xs)) :
    ∃ s' ys, run (init n) (ops ++ List.replicate k (.point d)) = some (s', ys) ∧
      allocated s' = allocated s + k := by
  rw [run_append ops _ h]
  have key : ∀ (k : ℕ) (s : St N D), ∃ s' ys, run s (List.replicate k (.point d)) = some (s', ys) ∧
      allocated s' = allocated s + k := by
    intro k
    induction k with
    | zero => intro s; exact ⟨s, [], rfl, rfl⟩
    | succ k ih =>
      intro s
      obtain ⟨s', ys, h1, h2⟩ := ih (newTest s s.name d true)
      refine ⟨s', .nothing :: ys, ?_, ?_⟩
      · simp only [List.replicate_succ, run, step, Option.bind_some, h1, Option.map_some]
      · rw [h2]
        simp [allocated, newTest]
        omega
  obtain ⟨s', ys, h1, h2⟩ := key k s
  exact ⟨s', xs ++ ys, by rw [h1]; rfl, h2⟩

/-- A history to continue. -/
example : (run (init 0 : St ℕ ℕ) [.add 1 10, .powerlaw 20]).isSome = true := by
  simp [run, step, init, dropFromModel, freeOwned, newTest, Function.update]

/-- C140: a power-law test source that replaces another one of the scanner's own takes its place:
as many sources are allocated as before. -/
theorem C140_powerlaw (n : N) (ops : List (Op N D)) (d : D)
    (hc : Spec.CalmRun (Spec.init n) ops) :
    let v := (Spec.run (Spec.init n) ops).1
    v.own = true → v.test ≠ none → v.model v.name = none →
    ∃ s s' xs ys, run (init n) ops = some (s, xs) ∧
      run (init n) (ops ++ [.powerlaw d]) = some (s', ys) ∧ allocated s' = allocated s := by
  intro v ho ht hv
  obtain ⟨s, hs, hR⟩ := run_R ops (R.start n) hc
  obtain ⟨dt, hdt⟩ := Option.ne_none_iff_exists'.1 ht
  obtain ⟨t, hst, htd⟩ := hR.chosen hdt
  have hso : s.owned = true := hR.own.trans ho
  have hn : s.model s.name = none := hR.absent (by rw [hR.name]; exact hv)
  have h1 : step s (.powerlaw d) =
      some (newTest { s with heap := s.heap.set t none } s.name d true, .nothing) := by
    simp only [step, dropFromModel_absent hn, Option.bind_some, freeOwned, hso, if_true, hst,
      free_ok htd, Option.map_some]
  refine ⟨s, newTest { s with heap := s.heap.set t none } s.name d true, _, _, hs, by
    rw [run_append ops _ hs]
    simp only [run, h1, Option.bind_some, Option.map_some]
    rfl, ?_⟩
  have hlt := lt_of_some htd
  have hget : s.heap[t] = some dt := by
    rw [List.getElem?_eq_getElem hlt] at htd
    exact Option.some.inj htd
  simp only [allocated, newTest, List.countP_append]
  rw [List.countP_set hlt, hget]
  have hpos : 0 < s.heap.countP (·.isSome) := by
    rw [List.countP_pos_iff]
    exact ⟨some dt, hget ▸ List.getElem_mem hlt, rfl⟩
  simp
  omega

/-- Such a history. -/
example :
    let ops : List (Op ℕ ℕ) := [.add 1 10, .powerlaw 20]
    Spec.CalmRun (Spec.init 0) ops ∧ (Spec.run (Spec.init 0) ops).1.own = true ∧
      (Spec.run (Spec.init 0) ops).1.test ≠ none ∧
      (Spec.run (Spec.init 0) ops).1.model (Spec.run (Spec.init 0) ops).1.name = none := by
  simp [Spec.CalmRun, Spec.Calm, Spec.step, Spec.init, Function.update, Spec.run]

/-! ### The map of test statistics -/

/-- C140 violated: the scan for a map with an absolute tolerance (type 0, the default) never makes a
map, whatever the data, the model and the number of iterations asked for: the type of the tolerance
is taken for the number of iterations, and the fit without test source gives up at once. -/
theorem C140_tsmap_violates (w : TsScan.Wrapper) (g : TsScan.Grid) (remake : Bool)
    (f : TsScan.Fits) (e : Newton.Env) (init : List ℝ) (tol lambda : ℝ) (maxIter : ℕ)
    (r : TsScan.Run) (hi : init ≠ [])
    (h : tsmap w g remake f e init tol lambda 0 maxIter = .ok r) : r = .failed (-2) := by
  unfold tsmap tscube at h
  obtain ⟨x, hx, h2⟩ := Res.bind_eq_ok.1 h
  have hst : x.status = -2 := by
    unfold Newton.fitNorms at hx
    obtain ⟨l0, hl0, hx⟩ := Res.bind_eq_ok.1 hx
    rw [if_neg (by rw [List.length_eq_zero_iff]; exact hi)] at hx
    obtain ⟨s, hs, hx⟩ := Res.bind_eq_ok.1 hx
    rw [show Newton.newtonLoop e tol 0 s = .ok (.done s true) from rfl, Res.bind_ok] at hx
    unfold Newton.conclude at hx
    obtain ⟨⟨l, edm⟩, hf, hx⟩ := Res.bind_eq_ok.1 hx
    simp only [if_true] at hx
    cases hx
    rfl
  rw [TsScan.C132_null _ _ _ _ (by simp only [hst]; decide)] at h2
  simp only [hst] at h2
  cases h2
  rfl

/-- C140: the two numbers are exchanged: a scan for a map is the scan in which the other is asked
for, and for an SED they are taken as they are. -/
theorem C140_tsmap_partial (w : TsScan.Wrapper) (g : TsScan.Grid) (remake : Bool)
    (f : TsScan.Fits) (e : Newton.Env) (init : List ℝ) (tol lambda : ℝ) (nNorm tolType maxIter : ℕ)
    (r : Newton.FitResult) (x : TsScan.Run) :
    (Newton.fitNorms e tol tolType lambda init = .ok r → r.status = 0 →
      TsScan.run w g ⟨true, false, 0, remake⟩ ⟨(0, r.logLike), f.broad, f.sed⟩ = .ok x →
      tsmap w g remake f e init tol lambda tolType maxIter = .ok x) ∧
    (Newton.fitNorms e tol maxIter lambda init = .ok r → r.status = 0 →
      TsScan.run w g ⟨false, true, nNorm, remake⟩ ⟨(0, r.logLike), f.broad, f.sed⟩ = .ok x →
      sed w g nNorm remake f e init tol lambda maxIter tolType = .ok x) := by
  constructor
  · intro h1 h2 h3
    unfold tsmap tscube
    rw [h1, Res.bind_ok, h2, h3]
  · intro h1 h2 h3
    unfold sed tscube
    rw [h1, Res.bind_ok, h2, h3]

/-- A fit that converges in ten iterations, for which a map can never be made. -/
example (w : TsScan.Wrapper) (g : TsScan.Grid) (f : TsScan.Fits) :
    (∃ r, Newton.fitNorms (Newton.one 1) 1e-3 10 0 [3] = .ok r ∧ r.status = 0) ∧
    tsmap w g false f (Newton.one 1) [3] 1e-3 0 0 10 = .ok (.failed (-2)) := by
  refine ⟨⟨_, Newton.one_fit, rfl⟩, ?_⟩
  have hll := Newton.one_ll (n := 1) (x := 3) (by norm_num) (by norm_num)
  have hs : Newton.start (Newton.one 1) 1e-3 0 [3] (1 * Real.log 3 - 3) =
      .ok ⟨[3], 1 * Real.log 3 - 3, 0, 100 * 1e-3⟩ := by
    rw [Newton.start, Newton.one_total, if_neg (by norm_num)]
  have hfit : Newton.fitNorms (Newton.one 1) 1e-3 0 0 [3] =
      .ok ⟨-2, [3], 1 * Real.log 3 - 3, 100 * 1e-3⟩ := by
    unfold Newton.fitNorms
    rw [hll, Res.bind_ok, if_neg (by simp), hs, Res.bind_ok]
    rw [show Newton.newtonLoop (Newton.one 1) 1e-3 0 ⟨[3], 1 * Real.log 3 - 3, 0, 100 * 1e-3⟩ =
      .ok (.done ⟨[3], 1 * Real.log 3 - 3, 0, 100 * 1e-3⟩ true) from rfl, Res.bind_ok]
    unfold Newton.conclude Newton.finish
    simp only [if_true, hll, Res.bind_ok]
  unfold tsmap tscube
  rw [hfit, Res.bind_ok]
  exact TsScan.C132_null _ _ _ _ (show (-2 : Int) ≠ 0 by decide)

end Verif.TestSrc
