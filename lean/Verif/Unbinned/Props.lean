import Verif.Unbinned.Shares
import Mathlib.Tactic.NormNum
import Mathlib.Tactic.FieldSimp
import Mathlib.Analysis.SpecialFunctions.Log.Basic
set_option linter.unusedSectionVars false
set_option linter.unusedSimpArgs false
set_option linter.unusedVariables false
namespace Verif.Unbinned

open Verif.SrcModel Verif.Accum Spec

variable {κ E G X : Type} [LinearOrder κ]

/-! ### A small world for the examples -/

/-- Events are their energies, places and exposures are numbers, densities and counts
depend on the sum of the values of the parameters. -/
noncomputable def demo (newImp catchNeg : Bool) : World Nat ℝ ℝ ℝ where
  energy e := e
  eff _ := 1
  resp g _ := g
  dens src r e := r * (e + (src.pars.map (·.value)).sum)
  exposure _ r := match r with
    | none => 10
    | some (a, b) => b - a
  npred src x := x * (src.pars.map (·.value)).sum
  logPrior _ := 100
  roi := (0, 10)
  newImp := newImp
  catchNeg := catchNeg

/-- A source with one parameter. -/
def demoSrc (n : Nat) (v : ℝ) (free : Bool) : Src Nat ℝ := ⟨n, [⟨0, v, 1, -100, 100, free⟩], none⟩

/-- Its place and exposure. -/
def demoObj : Obj ℝ ℝ := ⟨1, 10⟩

/-- Computes with the definitions. -/
local macro "crunch" : tactic => `(tactic| norm_num [run, step, addSource, SrcModel.addSource, L.init, M.empty, StdMap.find,
    demoSrc, StdMap.put, StdMap.erase, SrcModel.deleteSource, deleteSource, Out.void, Ev.delete, sync, collect,
    findFreeSrcs, numFree, synced, refreshFree, touchAll, touch, fluxDensity, Ev.update, demo, paramOp, ParOp.toOp,
    SrcModel.step, SrcModel.setParamValues, count, setParamValues_, setLoop, funSetValues, Par.setValue,
    SrcModel.setParam, funSetParam, setPars, ParOp.syncs, syncParams, value, excluded, dataLoop, logSource, srcLoop,
    skipped, npredTerms, Kahan.init, Kahan.add, Kahan.total, demoObj, setCell, dropCell, Function.update, logL, dataSum,
    modelSum, counts, priors, InRange, logTerm, density, srcDensity, share, saveBest, noBest, restoreBestFit,
    getParamValues, setEbounds, unsetEbounds, updateNpreds, StdMap.keys, getEvents, move, Excluded, Moving, Fitting,
    runOk, evals, point])

/-- Computes a history. -/
local macro "hist" : tactic => `(tactic| simp [run, step, addSource, SrcModel.addSource, L.init, M.empty, StdMap.find,
    demoSrc, StdMap.put, StdMap.erase,
    SrcModel.deleteSource, deleteSource, Out.void, Ev.delete, sync, collect, findFreeSrcs, numFree, synced, refreshFree,
    touchAll, touch, fluxDensity, Ev.update, demo, paramOp, ParOp.toOp, SrcModel.step, SrcModel.setParamValues, count,
    setParamValues_, setLoop, funSetValues, Par.setValue, SrcModel.setParam, funSetParam, setPars, ParOp.syncs,
    syncParams])
/-- Computes an evaluation. -/
local macro "evaluate" : tactic => `(tactic| simp [value, excluded, dataLoop, logSource, srcLoop, touch, fluxDensity,
    Ev.update, StdMap.find, StdMap.put, skipped, npredTerms, Kahan.init, Kahan.add, Kahan.total, demoObj, demo,
    setCell, Function.update])

theorem init_run_good {w : World κ E G X} (hc : w.catchNeg = false) {es : List E} {objs : κ → Obj G X}
    {ops : List (Op κ E G X)} {s : L κ E G X} (hr : run w (L.init es objs) ops = some s) : Good w s :=
  run_good hc ops (init_good w es objs) hr

theorem not_stale {w : World κ E G X} {s : L κ E G X} (h : Good w s) (hf : ∀ n, ¬ Stale w s n) (n : κ) :
    Fresh w s n := by
  have := hf n
  rwa [stale_iff h.toBase, not_not] at this

/-! ### C37 -/

/-- After any history (exceptions included), if the remembered predicted counts are
current, or are not used, and if the listed parameters are those of the sources whenever
priors are asked for, then an evaluation gives the log-likelihood of the current sources
and the selected events; and zero if the energy selection leaves nothing. -/
theorem C37_value {w : World κ E G X} (hc : w.catchNeg = false) {es : List E} {objs : κ → Obj G X}
    {ops : List (Op κ E G X)} {s : L κ E G X} (hr : run w (L.init es objs) ops = some s)
    (hf : w.newImp = true → ∀ n, ¬ Stale w s n) (prior : Bool)
    (hp : prior = true → s.m.param = s.m.sources.flatMap (fun x => x.2.pars)) :
    (¬ Excluded w s → ∃ s', value w prior s = .ok s' (logL w prior s)) ∧
    (Excluded w s → value w prior s = .ok s 0) := by
  have hg := init_run_good hc hr
  constructor
  · intro hx
    obtain ⟨c, h1, -⟩ := value_logL hc hg (fun hi n => not_stale hg (hf hi) n) prior
      (fun h => by rw [hp h, collect_eq, List.flatMap_def]) hx
    exact ⟨_, h1⟩
  · intro hx
    have : excluded w s := hx
    simp only [value, this, ↓reduceIte]

/-- The number of events and what they are never depends on evaluations: an evaluation
changes neither the sources, nor the events, nor the selection. -/
theorem C37_value_pure {w : World κ E G X} (hc : w.catchNeg = false) {es : List E} {objs : κ → Obj G X}
    {ops : List (Op κ E G X)} {s : L κ E G X} (hr : run w (L.init es objs) ops = some s) (prior : Bool) :
    ∃ s' v, value w prior s = .ok s' v ∧ s'.m = s.m ∧ s'.objs = s.objs ∧ s'.useEb = s.useEb ∧
      s'.emin = s.emin ∧ s'.emax = s.emax ∧ s'.events.map (·.e) = s.events.map (·.e) ∧
      (∀ p : Bool, logL w p s' = logL w p s) ∧ (∃ s'', value w prior s' = .ok s'' v) := by
  have hg := init_run_good hc hr
  by_cases hx : excluded w s
  · have h0 : value w prior s = .ok s 0 := by simp only [value, hx, ↓reduceIte]
    exact ⟨s, 0, h0, rfl, rfl, rfl, rfl, rfl, rfl, fun _ => rfl, s, h0⟩
  · obtain ⟨c, h1, h2⟩ := value_eq w hc prior hg hx
    obtain ⟨t, v, hv, k1, k2, k3, k4, k5, k6, k7, k8⟩ := value_keeps w hc prior hg
    have hl : ∀ p : Bool, logL w p t = logL w p s := logL_congr (by rw [k2]) k3 k8 k5 k6 k7
    have hx' : ¬ excluded w t := by unfold excluded at hx ⊢; rw [k5, k6, k7]; exact hx
    obtain ⟨c', h3, -⟩ := value_eq w hc prior k1 hx'
    have hd : dataSum w t = dataSum w s := by
      have := hl false
      unfold logL at this
      have hm : modelSum w t = modelSum w s := by unfold modelSum counts; rw [k2, k3]
      rw [hm] at this; simpa using this
    have hn : evalNum w prior t = evalNum w prior s := by
      unfold evalNum
      have e1 : terms w t t.events = terms w s s.events := hd
      have e2 : npredTerms w t = npredTerms w s := by unfold npredTerms; rw [k2, k3, k4]
      rw [e1, e2, k2]
    rw [h1] at hv
    cases hv
    rw [hn] at h3
    exact ⟨_, _, h1, k2, k3, k5, k6, k7, k8, hl, _, h3⟩

/-- The remembered counts of a source can be other than current only if they changed and
were not brought up to date since, by one of the ways listed in `Refreshes`. -/
theorem C37_stale_tracked {w : World κ E G X} (hc : w.catchNeg = false) (hi : w.newImp = true) {es : List E}
    {objs : κ → Obj G X} {ops : List (Op κ E G X)} {s : L κ E G X}
    (hr : run w (L.init es objs) ops = some s) (n : κ) (hst : Stale w s n) :
    dirty w (L.init es objs) (fun _ => False) ops n :=
  run_dirty hc hi ops _ (init_good w es objs)
    (fun n hn => by obtain ⟨src, h1, -⟩ := hn; simp [L.init, M.empty] at h1) hr n hst

/-- In a fit, i.e. any history in which sources come and go, free parameters are set
(successfully or not), the energy range changes, and so on, an evaluation after a
synchronisation gives the log-likelihood of the current sources. -/
theorem C37_fitting {w : World κ E G X} (hc : w.catchNeg = false) {es : List E} {objs : κ → Obj G X}
    {ops : List (Op κ E G X)} (hop : ∀ op ∈ ops, Fitting op) {s : L κ E G X}
    (hr : run w (L.init es objs) (ops ++ [.par .sync]) = some s) (prior : Bool) (hx : ¬ Excluded w s) :
    ∃ s', value w prior s = .ok s' (logL w prior s) := by
  obtain ⟨t, h1, h2⟩ := (run_append ops [.par .sync] _ _).mp hr
  have hs : s = syncParams w t := by
    have : paramOp w t .sync = .ok (syncParams w t) () := rfl
    simp only [run, step, this, Option.some.injEq] at h2
    exact h2.symm
  have hg0 := init_run_good hc h1
  have hff := fitting_run hc ops (init_good w es objs)
    (fun n src h => by simp [L.init, M.empty, StdMap.find] at h) hop h1
  obtain ⟨g1, g2, g3⟩ := syncParams_good hg0
  have hfix : FixedFresh w (syncParams w t) := fixedFresh_of hff g2 fun n src h1 h2 => .inr ⟨h1, rfl⟩
  subst hs
  obtain ⟨c, hv, -⟩ := value_logL hc g1 (fun hi n src hf => by
    by_cases hxf : Fixed src
    · exact hfix n src hf hxf src hf
    · exact g3 hi n src hf hxf src hf) prior (fun _ => rfl) hx
  exact ⟨_, hv⟩

/-- Example of a fit with a free and a fixed source and one event. -/
example : ∃ s, run (demo true false) (L.init [1] (fun _ => demoObj))
    ([.add (demoSrc 0 1 true) demoObj, .add (demoSrc 1 2 false) demoObj, .par (.setValues true [3])] ++
      [.par .sync]) = some s ∧ (∀ op ∈ ([.add (demoSrc 0 1 true) demoObj, .add (demoSrc 1 2 false) demoObj,
      .par (.setValues true [3])] : List (Op Nat ℝ ℝ ℝ)), Fitting op) ∧ ¬ Excluded (demo true false) s ∧
      logL (demo true false) false s = Real.log 7 - 50 := by
  repeat crunch

/-- A parameter of a source without free parameters is changed with `setParam`, and the
model is synchronised: the evaluation is that of the old value. -/
theorem C37_fixed_source_violates : ∃ s : L Nat ℝ ℝ ℝ,
    run (demo true false) (L.init [] (fun _ => demoObj)) [.add (demoSrc 0 1 false) demoObj,
      .par (.setParam ⟨0, 5, 1, -100, 100, false⟩ true 0), .par .sync] = some s ∧
    s.m.sources = [(0, demoSrc 0 5 false)] ∧ s.m.param = s.m.sources.flatMap (fun x => x.2.pars) ∧
    (∃ s', value (demo true false) false s = .ok s' (-10)) ∧ logL (demo true false) false s = -50 := by
  hist
  constructor
  · evaluate
  · simp [logL, dataSum, modelSum, counts, InRange, demoObj]
    norm_num

/-- With LOGLIKE_CATCH_NEG_PROB set, an evaluation that throws leaves what it has summed so
far, and the next evaluation is wrong by it. -/
theorem C37_catch_violates : ∃ s : L Nat ℝ ℝ ℝ,
    run (demo true true) (L.init [2, -1] (fun _ => demoObj)) [.add (demoSrc 0 0 true) demoObj,
      .eval false, .par (.setValues true [2])] = some s ∧
    (∃ s', value (demo true true) false s = .ok s' (logL (demo true true) false s + Real.log 2)) := by
  hist
  evaluate
  norm_num
  hist
  norm_num
  simp [dataLoop, logSource, srcLoop, touch, fluxDensity, Ev.update, StdMap.find, StdMap.put, skipped, setCell,
    refreshFree, numFree, findFreeSrcs, collect, Kahan.add, logL, dataSum, modelSum, counts, InRange, logTerm, density,
    srcDensity]
  norm_num
  ring

/-- A source of the model is moved, its exposure recomputed and the model synchronised:
the density at the event is still that of the old place (the place is 1 before, 2 after). -/
theorem C37_move_violates : ∃ s : L Nat ℝ ℝ ℝ,
    run (demo true false) (L.init [1] (fun _ => demoObj)) [.add (demoSrc 0 1 true) demoObj] = some s ∧
    (∃ s', value (demo true false) false (syncParams (demo true false) (move (demo true false) s 0 2 true)) =
      .ok s' (Real.log 2 - 10)) ∧
    logL (demo true false) false (syncParams (demo true false) (move (demo true false) s 0 2 true)) =
      Real.log 4 - 10 := by
  hist
  constructor
  · simp [move, value, excluded, dataLoop, logSource, srcLoop, touch, fluxDensity, Ev.update, StdMap.find, StdMap.put,
      skipped, npredTerms, Kahan.init, Kahan.add, demoObj, setCell, refreshFree, numFree, Kahan.total, findFreeSrcs,
      collect]
    norm_num
    try ring
  · simp [move, logL, dataSum, modelSum, counts, InRange, demoObj, logTerm, density, srcDensity]
    norm_num

/-! ### C32 -/

/-- Since the last change of the list of sources, or the last `saveCurrentFit`, i.e. from a
state with an empty memory on, whatever else was done: the remembered number is at least
as large as that of every evaluation made, and, as soon as one was better than −1e38,
it is that of an evaluation made at the remembered point. -/
theorem C32_best {w : World κ E G X} {s0 s : L κ E G X} (h0 : s0.best = noBest) {ops : List (Op κ E G X)}
    (hop : ∀ op ∈ ops, Remembers op) (hr : run w s0 ops = some s) :
    (∀ x ∈ evals w s0 ops, x.2 ≤ s.best) ∧
    ((∃ x ∈ evals w s0 ops, noBest < x.2) → (s.bestPars, s.best) ∈ evals w s0 ops) := by
  obtain ⟨b1, b2, b3⟩ := best_run ops s0 s hop hr
  refine ⟨b1, ?_⟩
  rintro ⟨x, hx, hlt⟩
  rcases b3 with ⟨e, -⟩ | ⟨-, e⟩
  · have := b1 x hx
    rw [e, h0] at this
    exact absurd hlt (not_lt.mpr this)
  · exact e

/-- The memory is empty at the start and after every change of the list of sources. -/
theorem C32_memory_cleared (w : World κ E G X) (s : L κ E G X) (es : List E) (objs : κ → Obj G X) :
    (L.init es objs : L κ E G X).best = noBest ∧
    (∀ src o s', addSource w s src o = .ok s' () → s'.best = noBest) ∧
    (∀ n s' x, deleteSource w s n = .ok s' x → s'.best = noBest) := by
  refine ⟨rfl, ?_, ?_⟩
  · intro src o s' h
    unfold addSource at h
    cases hd : SrcModel.addSource s.m src with
    | ub => rw [hd] at h; cases h
    | throws m => rw [hd] at h; cases h
    | ok m u =>
      rw [hd] at h
      simp only at h
      split at h
      · cases h
      · cases h; rfl
  · intro n s' x h
    unfold deleteSource at h
    simp only at h
    cases hd : SrcModel.deleteSource s.m n with
    | ub => rw [hd] at h; cases h
    | throws m => rw [hd] at h; cases h
    | ok m u => rw [hd] at h; cases h; rfl

/-- A model is built up by a fit, a last source is added, and then free parameters are set
and the likelihood evaluated, always with the same choice about priors, any number of
times.  If one evaluation was better than −1e38, then: the best fit is remembered with
the largest of all evaluated numbers; it can be restored if the initial values were within
their bounds; and after it is restored the parameters are those of that evaluation, the
log-likelihood of the model and a new evaluation give the largest number again. -/
theorem C32_restored_value {w : World κ E G X} (hc : w.catchNeg = false) {es : List E} {objs : κ → Obj G X}
    {build : List (Op κ E G X)} (hb : ∀ op ∈ build, Fitting op) {s1 s0 s : L κ E G X}
    (h1 : run w (L.init es objs) build = some s1) {src : Src κ ℝ} {o : Obj G X}
    (h0 : addSource w s1 src o = .ok s0 ()) (hx : ¬ Excluded w s0) {prior : Bool} {ops : List (Op κ E G X)}
    (hop : ∀ op ∈ ops, Moving prior op) (hr : runOk w s0 ops = some s)
    (hev : ∃ x ∈ evals w s0 ops, noBest < x.2) :
    (∀ x ∈ evals w s0 ops, x.2 ≤ s.best) ∧ (s.bestPars, s.best) ∈ evals w s0 ops ∧
    ((∀ x ∈ s0.m.sources, ∀ p ∈ x.2.pars, p.lo ≤ p.value ∧ p.value ≤ p.hi) →
      ∃ s', restoreBestFit w s = .ok s' ()) ∧
    ∀ s', restoreBestFit w s = .ok s' () → point s' = s.bestPars ∧
      logL w prior s' = s.best ∧ ∃ s'', value w prior s' = .ok s'' s.best := by
  have hg1 := init_run_good hc h1
  have hff := fitting_run hc build (init_good w es objs)
    (fun n src h => by simp [L.init, M.empty, StdMap.find] at h) hb h1
  have hff0 := fitting_step hc hg1 hff (op := .add src o) trivial
  have hk := (addSource_keeps hg1 src o).1
  simp only [step] at hff0
  rw [h0] at hk hff0
  have hpar : s0.m.param = collect s0.m.sources := by
    unfold addSource at h0
    cases hd : SrcModel.addSource s1.m src with
    | ub => rw [hd] at h0; cases h0
    | throws m => rw [hd] at h0; cases h0
    | ok m u =>
      rw [hd] at h0
      simp only at h0
      split at h0
      · cases h0
      · cases h0
        unfold SrcModel.addSource at hd
        split at hd
        · cases hd; rfl
        · cases hd
  have hinv : FitInv w s0 s0 := by
    refine ⟨hk.1, fun n hi src' hf => ?_, hff0, hpar, same_self true _, rfl, rfl, rfl, rfl, rfl, id⟩
    by_cases hxf : Fixed src'
    · exact hff0 n src' hf hxf src' hf
    · exact hk.2.2.1 hi n src' hf hxf src' hf
  have hbest0 : s0.best = noBest := (C32_memory_cleared w s1 es objs).2.1 src o s0 h0
  obtain ⟨m1, m2, m3, -⟩ := moving_run hc ops hinv hop hr
  obtain ⟨b1, b2⟩ := C32_best hbest0 m3 m2
  have hlt : noBest < s.best := by
    obtain ⟨x, hx1, hx2⟩ := hev
    exact lt_of_lt_of_le hx2 (b1 x hx1)
  obtain ⟨r1, r2, r3, r4⟩ := restored_value hc hinv hbest0 hx ops hop hr hlt
  refine ⟨r1, r2, fun hbd => r3 ?_, r4⟩
  intro p hp
  rw [collect_eq, List.mem_flatten] at hp
  obtain ⟨ps, h2, h3⟩ := hp
  rw [List.mem_map] at h2
  obtain ⟨x, h4, rfl⟩ := h2
  exact hbd x h4 p h3

/-- An example of such a fit, with two evaluations, the first being the better one. -/
example : ∃ s0 s, addSource (demo true false) (L.init [] (fun _ => demoObj)) (demoSrc 0 1 true) demoObj = .ok s0 () ∧
    ¬ Excluded (demo true false) s0 ∧
    runOk (demo true false) s0 [.eval false, .par (.setValues true [3]), .eval false] = some s ∧
    (∀ op ∈ ([.eval false, .par (.setValues true [3]), .eval false] : List (Op Nat ℝ ℝ ℝ)), Moving false op) ∧
    evals (demo true false) s0 [.eval false, .par (.setValues true [3]), .eval false] = [([1], -10), ([3], -30)] := by
  repeat crunch

/-- `saveCurrentFit` remembers the current values of all parameters of the sources, in
place of whatever was remembered, unless the log-likelihood is not above −1e38. -/
theorem C32_save {w : World κ E G X} (hc : w.catchNeg = false) {es : List E} {objs : κ → Obj G X}
    {ops : List (Op κ E G X)} {s : L κ E G X} (hr : run w (L.init es objs) ops = some s) :
    ∃ s', saveCurrentFit w s = .ok s' () ∧ s'.m.sources = s.m.sources ∧
      (noBest < s'.best → s'.bestPars = s.m.sources.flatMap (fun x => x.2.pars.map (·.value))) := by
  have hg := (syncParams_good (init_run_good hc hr)).1
  have hg' : Good w { syncParams w s with best := noBest } :=
    ⟨⟨hg.wf, hg.npSorted, hg.npKeys, hg.nresp, hg.coh, hg.nocell, hg.evs⟩, hg.acc⟩
  obtain ⟨t, v, hv, -, k2, -⟩ := value_keeps w hc true hg'
  have hfr := value_frame w true { syncParams w s with best := noBest }
  rw [hv] at hfr
  have hpt : point { syncParams w s with best := noBest } =
      s.m.sources.flatMap (fun x => x.2.pars.map (·.value)) := by
    change (collect s.m.sources).map (fun p => p.value) = _
    rw [collect_eq, List.flatMap_def, List.map_flatten, List.map_map]; rfl
  unfold saveCurrentFit
  simp only [hv]
  obtain ⟨e1, -⟩ := saveBest_same t v
  refine ⟨_, rfl, by rw [e1, k2]; rfl, ?_⟩
  have hgp : getParamValues false t.m = point { syncParams w s with best := noBest } := by
    rw [k2]; rfl
  rcases hfr with ⟨-, ⟨-, h2⟩ | ⟨-, ⟨h1, h2, h3⟩ | ⟨h1, h2, h3⟩⟩⟩
  · intro hlt
    unfold saveBest at hlt ⊢
    split at hlt
    · rename_i h; rw [if_pos h]; simp only; rw [hgp, hpt]
    · rw [h2] at hlt; exact absurd hlt (lt_irrefl _)
  · intro _
    unfold saveBest
    rw [if_neg (by rw [h2]; exact lt_irrefl v), h3, hpt]
  · intro hlt
    unfold saveBest at hlt ⊢
    rw [if_neg (by rw [h2]; exact h1), h2] at hlt
    exact absurd hlt (lt_irrefl _)

/-- One source is replaced by another with as many parameters, and the best fit is
restored before any evaluation: the new source gets the values of the old one. -/
theorem C32_source_change_violates : ∃ s : L Nat ℝ ℝ ℝ,
    run (demo true false) (L.init [] (fun _ => demoObj)) [.add (demoSrc 0 1 true) demoObj, .eval true,
      .delete 0, .add (demoSrc 1 3 true) demoObj, .restore] = some s ∧
    s.m.sources = [(1, demoSrc 1 1 true)] := by
  repeat crunch

/-- Evaluations with and without priors are compared with each other: an evaluation with
priors, then, at a point which is better with and without priors, one without, and the
restored best fit is the worse point. -/
theorem C32_mixed_violates : ∃ s t : L Nat ℝ ℝ ℝ,
    run (demo true false) (L.init [] (fun _ => demoObj)) [.add (demoSrc 0 1 true) demoObj, .eval true,
      .par (.setValues true [0]), .eval false] = some s ∧
    run (demo true false) (L.init [] (fun _ => demoObj)) [.add (demoSrc 0 1 true) demoObj, .eval true,
      .par (.setValues true [0]), .eval false, .restore] = some t ∧
    ∀ prior, logL (demo true false) prior t < logL (demo true false) prior s := by
  repeat crunch

/-! ### C47 -/

/-- After `set_ebounds`, after any history: every source has the exposure of the given
range, and the evaluation is the sum over the events of the range minus the counts
predicted for the range. -/
theorem C47_range {w : World κ E G X} (hc : w.catchNeg = false) {es : List E} {objs : κ → Obj G X}
    {ops : List (Op κ E G X)} {s : L κ E G X} (hr : run w (L.init es objs) ops = some s) (a b : ℝ)
    (hx : a < w.roi.2 ∧ w.roi.1 < b) :
    ∃ s', value w false (setEbounds w s a b) = .ok s'
      (open Classical in
       ((s.events.filter (fun ev => decide (a ≤ w.energy ev.e ∧ w.energy ev.e ≤ b))).map
        (fun ev => logTerm w s ev.e)).sum -
       (s.m.sources.map (fun x => w.npred x.2 (w.exposure (s.objs x.1).geo (some (a, b))))).sum) := by
  have hg := init_run_good hc hr
  obtain ⟨h1, h2⟩ := setEb_good hg a b
  have hx' : ¬ Excluded w (setEbounds w s a b) := by
    rintro ⟨-, h⟩
    simp only [setEbounds] at h
    rcases h with h | h
    · exact absurd hx.1 (not_lt.mpr h)
    · exact absurd hx.2 (not_lt.mpr h)
  obtain ⟨c, hv, -⟩ := value_logL hc h1 (fun _ n => h2 n) false (fun h => by cases h) hx'
  refine ⟨saveBest (evald w (setEbounds w s a b) c) (logL w false (setEbounds w s a b)), ?_⟩
  rw [hv]
  congr 1
  unfold logL
  have e1 : dataSum w (setEbounds w s a b) = (open Classical in
       ((s.events.filter (fun ev => decide (a ≤ w.energy ev.e ∧ w.energy ev.e ≤ b))).map
        (fun ev => logTerm w s ev.e)).sum) := by
    have hlt : logTerm w (setEbounds w s a b) = logTerm w s := by
      funext e
      have hd : density w (setEbounds w s a b) e = density w s e := by
        unfold density srcDensity
        congr 1
        refine List.map_congr_left fun x hx => ?_
        simp only [setEbounds]
        split <;> rfl
      unfold logTerm
      rw [hd]; rfl
    have hir : ∀ e, InRange w (setEbounds w s a b) e ↔ (a ≤ w.energy e ∧ w.energy e ≤ b) := by
      intro e; simp [InRange, setEbounds]
    unfold dataSum
    rw [hlt]
    congr 2
    refine List.filter_congr fun ev _ => ?_
    simp only [hir]
  have e2 : modelSum w (setEbounds w s a b) =
      (s.m.sources.map (fun x => w.npred x.2 (w.exposure (s.objs x.1).geo (some (a, b))))).sum := by
    unfold modelSum counts
    congr 1
    refine List.map_congr_left fun x hx => ?_
    have : x.1 ∈ StdMap.keys s.m.sources := List.mem_map_of_mem hx
    simp only [setEbounds, if_pos this]
  rw [e1, e2]
  simp

/-- A second call of `set_ebounds` has the effect it would have had without the first. -/
theorem C47_last_wins {w : World κ E G X} (hc : w.catchNeg = false) {es : List E} {objs : κ → Obj G X}
    {ops : List (Op κ E G X)} {s : L κ E G X} (hr : run w (L.init es objs) ops = some s) (a b c d : ℝ) :
    setEbounds w (setEbounds w s a b) c d = setEbounds w s c d := by
  have hg := init_run_good hc hr
  have hobj : (setEbounds w (setEbounds w s a b) c d).objs = (setEbounds w s c d).objs := by
    funext k
    simp only [setEbounds]
    split <;> rfl
  have hnp : (setEbounds w (setEbounds w s a b) c d).npreds = (setEbounds w s c d).npreds := by
    have hs2 := (setEb_good hg a b).1
    obtain ⟨p1, p2⟩ := updateNpreds_spec w (setEbounds w (setEbounds w s a b) c d).objs s.m.sources hg.wf.sorted'
      (setEbounds w s a b).npreds hs2.npSorted
    obtain ⟨q1, q2⟩ := updateNpreds_spec w (setEbounds w s c d).objs s.m.sources hg.wf.sorted' s.npreds hg.npSorted
    refine StdMap.ext p1 q1 fun k => ?_
    refine (p2 k).trans (Eq.trans ?_ (q2 k).symm)
    rw [hobj]
    cases hf : StdMap.find s.m.sources k with
    | some src => rfl
    | none =>
      have h1 : k ∉ StdMap.keys s.m.sources := StdMap.find_none.mp hf
      have h2 : StdMap.find (setEbounds w s a b).npreds k = none :=
        StdMap.find_none.mpr fun hk => h1 ((hs2.npKeys k).mp hk)
      have h3 : StdMap.find s.npreds k = none := StdMap.find_none.mpr fun hk => h1 ((hg.npKeys k).mp hk)
      simp only [h2, h3]
  have : ∀ t u : L κ E G X, t.m = u.m → t.objs = u.objs → t.events = u.events → t.nresp = u.nresp →
      t.cache = u.cache → t.npreds = u.npreds → t.acc = u.acc → t.best = u.best → t.bestPars = u.bestPars →
      t.useEb = u.useEb → t.emin = u.emin → t.emax = u.emax → t = u := by
    intro t u; cases t; cases u; simp only; rintro rfl rfl rfl rfl rfl rfl rfl rfl rfl rfl rfl rfl; rfl
  exact this _ _ rfl hobj rfl rfl rfl hnp rfl rfl rfl rfl rfl rfl

/-- `unset_ebounds` does not undo `set_ebounds`: the exposures stay those of the range, and
so do the predicted counts, while all events count again. -/
theorem C47_unset_violates : ∃ s t : L Nat ℝ ℝ ℝ,
    run (demo true false) (L.init [5] (fun _ => demoObj)) [.add (demoSrc 0 1 true) demoObj] = some s ∧
    run (demo true false) (L.init [5] (fun _ => demoObj)) [.add (demoSrc 0 1 true) demoObj,
      .setEb 1 2, .unsetEb] = some t ∧
    t.m = s.m ∧ t.useEb = s.useEb ∧
    (∃ s', value (demo true false) false s = .ok s' (Real.log 6 - 10)) ∧
    (∃ t', value (demo true false) false t = .ok t' (Real.log 6 - 1)) := by
  hist
  simp [setEbounds, unsetEbounds, updateNpreds, StdMap.keys, StdMap.put]
  constructor
  · simp [value, excluded, dataLoop, logSource, srcLoop, touch, fluxDensity, Ev.update, StdMap.find, StdMap.put,
      skipped, npredTerms, Kahan.init, Kahan.add, demoObj, setCell, Kahan.total]
    norm_num
    try ring
  · simp [value, excluded, dataLoop, logSource, srcLoop, touch, fluxDensity, Ev.update, StdMap.find, StdMap.put,
      skipped, npredTerms, Kahan.init, Kahan.add, demoObj, setCell, Kahan.total]
    norm_num
    try ring

/-- A source added while the energy range is restricted counts with its full exposure. -/
theorem C47_add_violates : ∃ s t : L Nat ℝ ℝ ℝ,
    run (demo true false) (L.init [] (fun _ => demoObj)) [.add (demoSrc 0 1 true) demoObj, .setEb 1 2] = some s ∧
    run (demo true false) (L.init [] (fun _ => demoObj)) [.setEb 1 2, .add (demoSrc 0 1 true) demoObj] = some t ∧
    t.m = s.m ∧ t.useEb = s.useEb ∧ t.emin = s.emin ∧ t.emax = s.emax ∧
    (∃ s', value (demo true false) false s = .ok s' (-1)) ∧
    (∃ t', value (demo true false) false t = .ok t' (-10)) := by
  repeat crunch

/-! ### C48 -/

/-- At all times the sum kept in an event is the sum of the densities remembered with it,
and these are of current sources only. -/
theorem C48_sum {w : World κ E G X} (hc : w.catchNeg = false) {es : List E} {objs : κ → Obj G X}
    {ops : List (Op κ E G X)} {s : L κ E G X} (hr : run w (L.init es objs) ops = some s) :
    ∀ ev ∈ s.events, ev.modelSum = (ev.flux.map (·.2)).sum ∧
      ∀ x ∈ ev.flux, ∃ src, (x.1, src) ∈ s.m.sources := by
  intro ev hev
  have h := (init_run_good hc hr).evs ev hev
  refine ⟨h.sum, fun x hx => ?_⟩
  have := h.keys x.1 (List.mem_map_of_mem hx)
  obtain ⟨y, hy, he⟩ := List.mem_map.mp this
  exact ⟨y.2, by rw [← he]; exact hy⟩

/-- In a fit in which no events are read after the construction, after a synchronisation
and an evaluation: the sum kept in each selected event is the density of the model there,
and, if it is not zero, the shares of the sources in the event add up to one. -/
theorem C48_shares_partial {w : World κ E G X} (hc : w.catchNeg = false) {es : List E} {objs : κ → Obj G X}
    {ops : List (Op κ E G X)} (hop : ∀ op ∈ ops, Fitting op ∧ ∀ es, op ≠ .read es) {s : L κ E G X}
    (hr : run w (L.init es objs) (ops ++ [.par .sync]) = some s) (hx : ¬ Excluded w s) (prior : Bool) :
    ∃ s' v, value w prior s = .ok s' v ∧ s'.m = s.m ∧
      ∀ ev ∈ s'.events, InRange w s' ev.e → ev.modelSum = density w s' ev.e ∧
        (density w s' ev.e ≠ 0 → (s'.m.sources.map (fun x => share w x.2 (s'.objs x.1) ev)).sum = 1) := by
  obtain ⟨t, h1, h2⟩ := (run_append ops [.par .sync] _ _).mp hr
  have hs : s = syncParams w t := by
    have : paramOp w t .sync = .ok (syncParams w t) () := rfl
    simp only [run, step, this, Option.some.injEq] at h2
    exact h2.symm
  have hg0 := init_run_good hc h1
  have hkn := known_run hc ops (init_good w es objs)
    (fun ev hev n src h => by simp [L.init, M.empty, StdMap.find] at h) hop h1
  have hg := (syncParams_good hg0).1
  subst hs
  have hkn' : FixedKnown w (syncParams w t) :=
    known_of hkn fun ev hev n src h1 h2 => .inr ⟨h1, rfl, ev, hev, rfl, rfl⟩
  obtain ⟨s', v, hv, k2, k3, -, -, -, -, hall⟩ := modelSum_eval hc hg hkn' rfl hx prior
  refine ⟨s', v, hv, k2, fun ev hev hir => ?_⟩
  obtain ⟨-, -, h5⟩ := hall ev hev hir
  refine ⟨h5, fun hne => ?_⟩
  have : ∀ l : List (κ × Src κ ℝ), (l.map (fun x => share w x.2 (s'.objs x.1) ev)).sum =
      (l.map (fun x => srcDensity w s' x ev.e)).sum / ev.modelSum := by
    intro l
    induction l with
    | nil => simp
    | cons x l ih =>
      simp only [List.map_cons, List.sum_cons, ih, add_div]
      rfl
  rw [this, h5]
  exact div_self hne

/-- Events read after sources were added: the fixed source is missing in the sum of the
event, and the shares add up to more than one. -/
theorem C48_read_violates : ∃ s : L Nat ℝ ℝ ℝ,
    run (demo true false) (L.init [] (fun _ => demoObj)) [.add (demoSrc 0 1 false) demoObj,
      .add (demoSrc 1 2 true) demoObj, .read [1], .par .sync, .eval false] = some s ∧
    ∃ ev ∈ s.events, density (demo true false) s ev.e = 5 ∧ ev.modelSum = 3 ∧
      (s.m.sources.map (fun x => share (demo true false) x.2 (s.objs x.1) ev)).sum = 5 / 3 := by
  hist
  simp [getEvents]
  hist
  simp [value, excluded, dataLoop, logSource, srcLoop, touch, fluxDensity, Ev.update, StdMap.find, StdMap.put,
      skipped, npredTerms, Kahan.init, Kahan.add, demoObj, setCell, Kahan.total, findFreeSrcs, numFree, collect,
      saveBest, noBest]
  norm_num
  split
  · simp [density, srcDensity, share, fluxDensity]
    norm_num
  · simp [density, srcDensity, share, fluxDensity]
    norm_num

end Verif.Unbinned
