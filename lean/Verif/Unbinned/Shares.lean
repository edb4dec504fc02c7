import Verif.Unbinned.History
set_option linter.unusedSectionVars false
set_option linter.unusedSimpArgs false
set_option linter.unusedVariables false
/-
The sums kept in the events.
-/
namespace Verif.Unbinned

open Verif.SrcModel Verif.Accum Spec

variable {κ E G X : Type} [LinearOrder κ]

/-- The event knows the source with its current density. -/
def Knows (w : World κ E G X) (s : L κ E G X) (ev : Ev κ E) (n : κ) : Prop :=
  ∀ src, StdMap.find s.m.sources n = some src →
    StdMap.find ev.flux n = some (w.dens src (w.resp (s.objs n).geo ev.e) ev.e * w.eff ev.e)

/-- All events know the fixed sources. -/
def FixedKnown (w : World κ E G X) (s : L κ E G X) : Prop :=
  ∀ ev ∈ s.events, ∀ n src, StdMap.find s.m.sources n = some src → Fixed src → Knows w s ev n

theorem known_of {w : World κ E G X} {s s' : L κ E G X} (hf : FixedKnown w s)
    (hq : ∀ ev' ∈ s'.events, ∀ n src, StdMap.find s'.m.sources n = some src → Fixed src →
      Knows w s' ev' n ∨ (StdMap.find s.m.sources n = some src ∧ (s'.objs n).geo = (s.objs n).geo ∧
        ∃ ev ∈ s.events, ev'.e = ev.e ∧ StdMap.find ev'.flux n = StdMap.find ev.flux n)) :
    FixedKnown w s' := by
  intro ev' hev n src hs hx
  rcases hq ev' hev n src hs hx with h | ⟨h1, h2, ev, h3, h4, h5⟩
  · exact h
  · intro src' hs'
    rw [hs] at hs'; cases hs'
    rw [h5, h2, h4]
    exact hf ev h3 n src h1 hx src h1

theorem touched_known {w : World κ E G X} {s s' : L κ E G X} (h : Good w s) (hf : FixedKnown w s) {k : κ}
    {src : Src κ ℝ} (o : Obj G X)
    (he : s'.events = s.events.map (fun ev => ev.update k (w.dens src (w.resp o.geo ev.e) ev.e * w.eff ev.e)))
    (hk : StdMap.find s'.m.sources k = some src) (ho : s'.objs k = o)
    (hn : ∀ n, n ≠ k → StdMap.find s'.m.sources n = StdMap.find s.m.sources n ∧ s'.objs n = s.objs n) :
    FixedKnown w s' := by
  refine known_of hf fun ev' hev n src' hs hx => ?_
  rw [he, List.mem_map] at hev
  obtain ⟨ev, hev, rfl⟩ := hev
  have hsrt := (h.evs ev hev).sorted
  by_cases hnk : n = k
  · left
    intro src'' hs''
    subst hnk
    rw [hk] at hs''; cases hs''
    rw [ho]
    simp only [Ev.update]
    rw [StdMap.find_put hsrt, if_pos rfl]
  · right
    rw [(hn n hnk).1] at hs
    refine ⟨hs, by rw [(hn n hnk).2], ev, hev, rfl, ?_⟩
    simp only [Ev.update]
    rw [StdMap.find_put hsrt, if_neg hnk]

theorem known_step {w : World κ E G X} (hc : w.catchNeg = false) {s : L κ E G X} (h : Good w s)
    (hf : FixedKnown w s) {op : Op κ E G X} (hop : Fitting op) (hread : ∀ es, op ≠ .read es) :
    match step w s op with
    | .ok s' _ => FixedKnown w s'
    | .throws s' => FixedKnown w s'
    | .ub => True := by
  cases op with
  | add src o =>
    simp only [step]
    cases hfd : StdMap.find s.m.sources src.name with
    | some x =>
      have : addSource w s src o = .throws s := by
        simp only [addSource, SrcModel.addSource, hfd]
      rw [this]; exact hf
    | none =>
      have hnk : src.name ∉ StdMap.keys s.m.sources := StdMap.find_none.mp hfd
      obtain ⟨s', hs'⟩ := (addSource_keeps h src o).2 hfd
      have hspec := touchAll_spec w o src src.name (!w.newImp || decide (0 < numFree src.pars)) s.events 0
        s.cache (fun i ev hev r hr => by rw [h.nocell _ hnk] at hr; cases hr)
      have hm : s'.m.sources = StdMap.put s.m.sources src.name src ∧
          s'.objs = Function.update s.objs src.name o ∧ s'.events = s.events.map (fun ev =>
            ev.update src.name (w.dens src (w.resp o.geo ev.e) ev.e * w.eff ev.e)) := by
        unfold addSource at hs'
        simp only [SrcModel.addSource, hfd] at hs'
        split at hs'
        · cases hs'
        · cases hs'; exact ⟨rfl, rfl, hspec.1⟩
      rw [hs']
      refine touched_known h hf o hm.2.2 ?_ (by rw [hm.2.1, Function.update_self]) fun n hn => ⟨?_, ?_⟩
      · rw [hm.1, StdMap.find_put h.wf.sorted', if_pos rfl]
      · rw [hm.1, StdMap.find_put h.wf.sorted', if_neg hn]
      · rw [hm.2.1, Function.update_of_ne hn]
  | delete n =>
    simp only [step]
    have key : ∀ t : L κ E G X, t.objs = s.objs → t.events = s.events.map (fun ev => ev.delete n) →
        (∀ k src, StdMap.find t.m.sources k = some src → k ≠ n ∧ StdMap.find s.m.sources k = some src) →
        FixedKnown w t := by
      intro t h1 h2 h3
      refine known_of hf fun ev' hev k src hs hx => .inr ?_
      rw [h2, List.mem_map] at hev
      obtain ⟨ev, hev, rfl⟩ := hev
      obtain ⟨h4, h5⟩ := h3 k src hs
      refine ⟨h5, by rw [h1], ev, hev, rfl, ?_⟩
      simp only [Ev.delete]
      rw [StdMap.find_erase (h.evs ev hev).sorted, if_neg h4]
    unfold deleteSource SrcModel.deleteSource
    simp only
    cases hfd : StdMap.find s.m.sources n with
    | none =>
      simp only [Out.void]
      refine key _ ?_ ?_ fun k src hs => ⟨?_, hs⟩
      · rfl
      · rfl
      rintro rfl
      have hs' : StdMap.find s.m.sources k = some src := hs
      rw [hfd] at hs'; cases hs'
    | some x =>
      simp only [Out.void]
      refine key _ ?_ ?_ fun k src hs => ?_
      · rfl
      · rfl
      have hs' : StdMap.find (StdMap.erase s.m.sources n) k = some src := hs
      rw [StdMap.find_erase h.wf.sorted'] at hs'
      split at hs'
      · cases hs'
      · rename_i hne; exact ⟨hne, hs'⟩
  | deleteAll =>
    obtain ⟨s', h1, h2, h3⟩ := deleteAll_good h
    simp only [step, h1]
    intro ev hev n src hs
    rw [h3] at hs; simp [StdMap.find] at hs
  | par op =>
    cases op with
    | setValues f vs =>
      cases f with
      | false => exact hop.elim
      | true =>
        simp only [step]
        have hl := setLoop_same true s.m.sources vs
        unfold paramOp
        simp only [ParOp.toOp, SrcModel.step, SrcModel.setParamValues, setParamValues_, ParOp.syncs]
        by_cases hlen : vs.length ≠ count true s.m.param
        · rw [if_pos hlen]; exact hf
        · rw [if_neg hlen]
          cases hd : setLoop true s.m.sources vs with
          | ub => trivial
          | throws m =>
            rw [hd] at hl
            exact known_of hf fun ev hev n src h1 h2 => .inr ⟨same_fixed hl h1 h2, rfl, ev, hev, rfl, rfl⟩
          | ok m r =>
            rw [hd] at hl
            exact known_of hf fun ev hev n src h1 h2 => .inr ⟨same_fixed hl.1 h1 h2, rfl, ev, hev, rfl, rfl⟩
    | sync => exact known_of hf fun ev hev n src h1 h2 => .inr ⟨h1, rfl, ev, hev, rfl, rfl⟩
    | setParam p b n => exact hop.elim
    | setTrueValue a b c d => exact hop.elim
    | setParams a b => exact hop.elim
    | direct a b => exact hop.elim
  | syncSrc n =>
    obtain ⟨s', h1, h2, h3, h4, h5, h6⟩ := syncSrc_keeps h n
    simp only [step, h1]
    unfold syncSrcParams at h1
    cases hfd : StdMap.find s.m.sources n with
    | none =>
      have hf' : StdMap.find (sync s.m).sources n = none := hfd
      simp only [hf'] at h1
      cases h1
      exact known_of hf fun ev hev n src h1 h2 => .inr ⟨h1, rfl, ev, hev, rfl, rfl⟩
    | some src =>
      have hf' : StdMap.find (sync s.m).sources n = some src := hfd
      have hnk : n ∈ StdMap.keys s.m.sources := StdMap.mem_keys_of_find hfd
      have hspec := touchAll_spec w (s.objs n) src n true s.events 0 s.cache
        (fun i ev hev r hr => h.coh n hnk i ev r hev (by rw [Nat.zero_add] at hr; exact hr))
      simp only [hf'] at h1
      rw [if_neg (not_lt.mpr h.nresp.ge)] at h1
      cases h1
      exact touched_known h hf (s.objs n) hspec.1 hfd rfl fun k hk => ⟨rfl, rfl⟩
  | setEb a b =>
    refine known_of hf fun ev hev n src h1 h2 => .inr ⟨h1, ?_, ev, hev, rfl, rfl⟩
    simp only [setEbounds]
    split <;> rfl
  | unsetEb => exact known_of hf fun ev hev n src h1 h2 => .inr ⟨h1, rfl, ev, hev, rfl, rfl⟩
  | read es => exact absurd rfl (hread es)
  | eval p =>
    by_cases hx : excluded w s
    · simp only [step, value, hx, ↓reduceIte, Out.void]; exact hf
    · obtain ⟨c, h1, h2⟩ := value_eq w hc p h hx
      simp only [step, h1, Out.void]
      obtain ⟨e1, e2, e3, e4, -⟩ := saveBest_same (evald w s c) (evalNum w p s)
      refine known_of hf fun ev' hev n src hs hfx => ?_
      rw [e4] at hev
      simp only [evald, List.mem_map] at hev
      obtain ⟨ev, hev, rfl⟩ := hev
      rw [e1] at hs
      have hs' : StdMap.find s.m.sources n = some src := hs
      have hee : (evEval w s ev).e = ev.e := by
        unfold evEval; split
        · rfl
        · exact evUpd_e _ _ _ _ _ _
      by_cases hsk : skipped w s ev.e
      · right
        exact ⟨hs', by rw [e2]; rfl, ev, hev, hee, by simp only [evEval, hsk, ↓reduceIte]⟩
      · have hfind := (evUpd_find w s.m.freeSrcs s.objs ev.e s.m.sources h.wf.sorted' (h.evs ev hev).sorted n).2
        rw [hs'] at hfind
        simp only at hfind
        by_cases hfr : n ∈ s.m.freeSrcs
        · left
          intro src' hs''
          rw [e1] at hs''
          have : StdMap.find s.m.sources n = some src' := hs''
          rw [hs'] at this; cases this
          rw [hee, e2]
          simp only [evEval, hsk, ↓reduceIte]
          rw [hfind, if_pos hfr]; rfl
        · right
          refine ⟨hs', by rw [e2]; rfl, ev, hev, hee, ?_⟩
          simp only [evEval, hsk, ↓reduceIte]
          rw [hfind, if_neg hfr]
  | restore => exact hop.elim
  | save => exact hop.elim

theorem known_run {w : World κ E G X} (hc : w.catchNeg = false) (ops : List (Op κ E G X)) :
    ∀ {s s' : L κ E G X}, Good w s → FixedKnown w s → (∀ op ∈ ops, Fitting op ∧ ∀ es, op ≠ .read es) →
      run w s ops = some s' → FixedKnown w s' := by
  induction ops with
  | nil => intro s s' h hf _ hr; simp only [run, Option.some.injEq] at hr; rw [← hr]; exact hf
  | cons op ops ih =>
    intro s s' h hf hop hr
    have h1 := step_keeps hc h op
    obtain ⟨ho1, ho2⟩ := hop op List.mem_cons_self
    have h2 := known_step hc h hf ho1 ho2
    simp only [run] at hr
    cases hs : step w s op with
    | ub => rw [hs] at hr; cases hr
    | throws t => rw [hs] at hr h1 h2; exact ih h1.1 h2 (fun o ho => hop o (List.mem_cons_of_mem _ ho)) hr
    | ok t a => rw [hs] at hr h1 h2; exact ih h1.1 h2 (fun o ho => hop o (List.mem_cons_of_mem _ ho)) hr

/-- A map is determined by its lookups over a sorted list of sources. -/
theorem flux_eq {w : World κ E G X} {s : L κ E G X} (hs : StdMap.Sorted s.m.sources) {ev : Ev κ E}
    (h : EvOk (StdMap.keys s.m.sources) ev) (hk : ∀ n, Knows w s ev n) :
    ev.flux = s.m.sources.map (fun x => (x.1, srcDensity w s x ev.e)) := by
  have hkeys : StdMap.keys (s.m.sources.map (fun x => (x.1, srcDensity w s x ev.e))) =
      StdMap.keys s.m.sources := by simp [StdMap.keys, Function.comp_def]
  have hs2 : StdMap.Sorted (s.m.sources.map (fun x => (x.1, srcDensity w s x ev.e))) := by
    unfold StdMap.Sorted; rw [hkeys]; exact hs
  have hfind : ∀ l : List (κ × Src κ ℝ), ∀ k, StdMap.find (l.map (fun x => (x.1, srcDensity w s x ev.e))) k =
      (StdMap.find l k).map (fun src => srcDensity w s (k, src) ev.e) := by
    intro l k
    induction l with
    | nil => rfl
    | cons x l ih =>
      obtain ⟨k', a⟩ := x
      simp only [List.map_cons, StdMap.find]
      by_cases hk : k' = k
      · subst hk; simp
      · rw [if_neg hk, if_neg hk]; exact ih
  refine StdMap.ext h.sorted hs2 fun k => ?_
  rw [hfind]
  cases hf : StdMap.find s.m.sources k with
  | none =>
    rw [StdMap.find_none] at hf
    rw [Option.map_none, StdMap.find_none]
    exact fun hm => hf (h.keys k hm)
  | some src => exact hk k src hf

/-- After an evaluation in which the list of free sources is current and the fixed ones are known, the sum of a
selected event is the density of the model. -/
theorem modelSum_eval {w : World κ E G X} (hc : w.catchNeg = false) {s : L κ E G X} (h : Good w s)
    (hf : FixedKnown w s) (hm : s.m.freeSrcs = findFreeSrcs s.m.sources) (hx : ¬ Excluded w s) (prior : Bool) :
    ∃ s' v, value w prior s = .ok s' v ∧ s'.m = s.m ∧ s'.objs = s.objs ∧ s'.useEb = s.useEb ∧
      s'.emin = s.emin ∧ s'.emax = s.emax ∧ s'.events.map (·.e) = s.events.map (·.e) ∧
      ∀ ev ∈ s'.events, InRange w s' ev.e → (∀ n, Knows w s' ev n) ∧
        ev.flux = s'.m.sources.map (fun x => (x.1, srcDensity w s' x ev.e)) ∧ ev.modelSum = density w s' ev.e := by
  obtain ⟨c, h1, h2⟩ := value_eq w hc prior h hx
  obtain ⟨t, v', hv, -, k2, k3, -, k5, k6, k7, k8⟩ := value_keeps w hc prior h
  rw [h1] at hv; cases hv
  refine ⟨_, _, h1, k2, k3, k5, k6, k7, k8, ?_⟩
  obtain ⟨e1, e2, e3, e4, e5, e6, e7⟩ := saveBest_same (evald w s c) (evalNum w prior s)
  intro ev' hev hr
  have hr' : InRange w s ev'.e := by
    unfold InRange at hr ⊢
    rw [k5, k6, k7] at hr; exact hr
  have hok : EvOk (StdMap.keys s.m.sources) ev' := by
    rw [e4] at hev; exact h2.evs ev' hev
  rw [e4] at hev
  simp only [evald, List.mem_map] at hev
  obtain ⟨ev, hev, rfl⟩ := hev
  have hee : (evEval w s ev).e = ev.e := by
    unfold evEval; split
    · rfl
    · exact evUpd_e _ _ _ _ _ _
  rw [hee] at hr'
  have hsk : ¬ skipped w s ev.e := (inRange_iff w s ev.e).mp hr'
  have hkn : ∀ n, Knows w s (evEval w s ev) n := by
    intro n src hs
    have hfind := (evUpd_find w s.m.freeSrcs s.objs ev.e s.m.sources h.wf.sorted' (h.evs ev hev).sorted n).2
    rw [hs] at hfind
    simp only at hfind
    rw [hee]
    simp only [evEval, hsk, ↓reduceIte]
    rw [hfind]
    by_cases hfx : Fixed src
    · split
      · rfl
      · exact hf ev hev n src hs hfx src hs
    · rw [if_pos]
      rw [hm, findFreeSrcs_eq]
      rw [fixed_iff, not_not] at hfx
      simp only [List.mem_map, List.mem_filter]
      exact ⟨(n, src), ⟨StdMap.find_some_mem hs, by rw [numFree_pos] at hfx; simpa using hfx⟩, rfl⟩
  have hkn' : ∀ n, Knows w (saveBest (evald w s c) (evalNum w prior s)) (evEval w s ev) n := by
    intro n src hs
    rw [k2] at hs
    rw [k3]; exact hkn n src hs
  have hfl := flux_eq h.wf.sorted' hok hkn
  have hfl' : (evEval w s ev).flux = (saveBest (evald w s c) (evalNum w prior s)).m.sources.map
      (fun x => (x.1, srcDensity w (saveBest (evald w s c) (evalNum w prior s)) x (evEval w s ev).e)) := by
    rw [hfl, k2]
    unfold srcDensity; rw [k3]
  refine ⟨hkn', hfl', ?_⟩
  rw [hok.sum, hfl']
  simp only [vsum, density, List.map_map, Function.comp_def]

end Verif.Unbinned
