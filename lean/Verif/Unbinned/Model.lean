import Verif.SrcModel.Model
import Verif.Accum.Model
/-
Model of the unbinned log-likelihood, src/LogLike.cxx, on top of the model of
`SourceModel`, with the sums kept in the events (src/Event.cxx:467-487), the cache of
responses (Likelihood/EventSourceCache.h) and the exposures kept in the sources.

Left abstract, in `World`: the flux density of a source at an event given the response,
the response, the exposure, the predicted counts given the exposure, the priors, and the
energies of the region of interest.  Numbers are real, so NaN does not occur and the
exception of LogLike.cxx:106-108 is never thrown.  Composite sources, for which
`computeExposure` throws, are not in the model.  `m_nevals`, the clock and the messages
are dropped.  The event container is used by this likelihood only.
-/
namespace Verif.Unbinned

open Verif.SrcModel Verif.Accum

variable {κ E G X : Type}

/-- What the likelihood takes from elsewhere. -/
structure World (κ E G X : Type) where
  /-- `Event::getEnergy` -/
  energy : E → ℝ
  /-- `Event::efficiency` -/
  eff : E → ℝ
  /-- response of a source at a given place to an event (`totalResponse`) -/
  resp : G → E → ℝ
  /-- `fluxDensity` given the response, PointSource.cxx:102-115, DiffuseSource.cxx:133-157
  (the latter does not use the cache) -/
  dens : Src κ ℝ → ℝ → E → ℝ
  /-- exposure computed on the energies of the region of interest (`none`) or between two
  given energies, PointSource.cxx:241-259 -/
  exposure : G → Option (ℝ × ℝ) → X
  /-- `Source::Npred`, Source.cxx:66-82, for the exposure kept in the source -/
  npred : Src κ ℝ → X → ℝ
  /-- `Parameter::log_prior_value` -/
  logPrior : Par κ ℝ → ℝ
  /-- `RoiCuts::getEnergyCuts` -/
  roi : ℝ × ℝ
  /-- `m_useNewImp`, SourceModel.cxx:169-174 -/
  newImp : Bool
  /-- whether LOGLIKE_CATCH_NEG_PROB is set, LogLike.cxx:154 -/
  catchNeg : Bool

/-- The part of a source which is not its spectrum: place (`m_dir`) and exposure
(`m_energies`, `m_exposure`). -/
structure Obj (G X : Type) where
  geo : G
  expo : X

/-- `Event` with `m_modelSum` and `m_fluxDensities`, Event.h:182-184. -/
structure Ev (κ E : Type) where
  e : E
  modelSum : ℝ
  flux : List (κ × ℝ)

/-- `LogLike`.  `objs` gives, for the names of the current sources, the rest of the
source; `cache k j` is the cell of `m_respCache` for source `k` and event `j` (the vectors
are made and resized on access, so a missing vector is a vector of empty cells), and
`nresp` its `m_nevents`. -/
structure L (κ E G X : Type) where
  m : M κ ℝ
  objs : κ → Obj G X
  events : List (Ev κ E)
  nresp : Nat
  cache : κ → Nat → Option ℝ
  npreds : List (κ × ℝ)
  acc : Kahan
  best : ℝ
  bestPars : List ℝ
  useEb : Bool
  emin : ℝ
  emax : ℝ

/-- The value `-1e38` of an empty memory of the best fit. -/
noncomputable def noBest : ℝ := -(10 : ℝ) ^ 38

/-- The constructor, LogLike.cxx:27-34. -/
noncomputable def L.init (events : List E) (objs : κ → Obj G X) : L κ E G X :=
  { m := M.empty, objs := objs, events := events.map (fun e => ⟨e, 0, []⟩),
    nresp := events.length, cache := fun _ _ => none, npreds := [], acc := Kahan.init,
    best := noBest, bestPars := [], useEb := false, emin := 0, emax := 0 }

/-- `fluxDensity` with an optional cell of the cache, PointSource.cxx:102-115: the value
and the cell afterwards. -/
def fluxDensity (w : World κ E G X) (src : Src κ ℝ) (o : Obj G X) (e : E) :
    Option (Option ℝ) → ℝ × Option (Option ℝ)
  | some (some r) => (w.dens src r e, some (some r))
  | some none => (w.dens src (w.resp o.geo e) e, some (some (w.resp o.geo e)))
  | none => (w.dens src (w.resp o.geo e) e, none)

variable [LinearOrder κ]

/-- `Event::updateModelSum`, Event.cxx:467-477, given the contribution. -/
def Ev.update (ev : Ev κ E) (n : κ) (contribution : ℝ) : Ev κ E :=
  { ev with
    modelSum := (match StdMap.find ev.flux n with
      | some old => ev.modelSum - old
      | none => ev.modelSum) + contribution
    flux := StdMap.put ev.flux n contribution }

/-- `Event::deleteSource`, Event.cxx:479-482; `operator[]` gives zero for a missing
entry. -/
def Ev.delete (ev : Ev κ E) (n : κ) : Ev κ E :=
  { ev with
    modelSum := ev.modelSum - (StdMap.find ev.flux n).getD 0
    flux := StdMap.erase ev.flux n }

/-- Writes a cell of the cache. -/
def setCell (c : κ → Nat → Option ℝ) (k : κ) (j : Nat) (v : Option ℝ) : κ → Nat → Option ℝ :=
  fun k' j' => if k' = k ∧ j' = j then v else c k' j'

/-- `ResponseCache::deleteSource`, EventSourceCache.h. -/
def dropCell (c : κ → Nat → Option ℝ) (k : κ) : κ → Nat → Option ℝ :=
  fun k' j' => if k' = k then none else c k' j'

/-- One call of `updateModelSum` with a cell of the cache, on event `j`. -/
def touch (w : World κ E G X) (o : Obj G X) (src : Src κ ℝ) (k : κ) (j : Nat)
    (ev : Ev κ E) (c : κ → Nat → Option ℝ) : Ev κ E × (κ → Nat → Option ℝ) :=
  let r := fluxDensity w src o ev.e (some (c k j))
  (ev.update k (r.1 * w.eff ev.e), setCell c k j (r.2.getD none))

/-- The loop over sources of `logSourceModel`, LogLike.cxx:129-144: the sums of the event
are updated for the free sources, and the densities added. -/
def srcLoop (w : World κ E G X) (free : List κ) (objs : κ → Obj G X) (j : Nat) :
    List (κ × Src κ ℝ) → Ev κ E → (κ → Nat → Option ℝ) → ℝ →
    Ev κ E × (κ → Nat → Option ℝ) × ℝ
  | [], ev, c, v => (ev, c, v)
  | (k, src) :: rest, ev, c, v =>
    let p := if k ∈ free then touch w (objs k) src k j ev c else (ev, c)
    let r := fluxDensity w src (objs k) ev.e (some (p.2 k j))
    srcLoop w free objs j rest p.1 (setCell p.2 k j (r.2.getD none)) (v + r.1 * w.eff ev.e)

/-- `logSourceModel`, LogLike.cxx:112-162, for event `j`.  `EventSourceCache` throws if
there are more events than it was told of. -/
noncomputable def logSource (w : World κ E G X) (s : L κ E G X) (j : Nat) (ev : Ev κ E) :
    Out (L κ E G X) ℝ :=
  if s.m.sources ≠ [] ∧ s.nresp ≤ j then .throws s
  else
    let r := srcLoop w s.m.freeSrcs s.objs j s.m.sources ev s.cache 0
    let s' := { s with events := s.events.set j r.1, cache := r.2.1 }
    if 0 < r.2.2 then .ok s' (Real.log r.2.2)
    else if w.catchNeg then .throws s'
    else if s.m.sources.length = 1 then .ok s' 0
    else .ok s' (-(10 : ℝ) ^ 30)

/-- Whether the event is left out, LogLike.cxx:54-57. -/
def skipped (w : World κ E G X) (s : L κ E G X) (e : E) : Prop :=
  s.useEb = true ∧ (w.energy e < s.emin ∨ s.emax < w.energy e)

/-- The data sum, LogLike.cxx:53-63, from event `j` on. -/
noncomputable def dataLoop (w : World κ E G X) : Nat → Nat → L κ E G X → Out (L κ E G X) Unit
  | 0, _, s => .ok s ()
  | n + 1, j, s =>
    match s.events[j]? with
    | none => .throws s
    | some ev =>
      open Classical in
      if skipped w s ev.e then dataLoop w n (j + 1) s
      else match logSource w s j ev with
        | .ok s' a => dataLoop w n (j + 1) { s' with acc := s'.acc.add a }
        | .throws s' => .throws s'
        | .ub => .ub

/-- The addends of the model integral, LogLike.cxx:67-86. -/
def npredTerms (w : World κ E G X) (s : L κ E G X) : List ℝ :=
  if w.newImp then s.npreds.map (·.2)
  else s.m.sources.map (fun x => w.npred x.2 (s.objs x.1).expo)

/-- `saveBestFit`, LogLike.cxx:404-412. -/
noncomputable def saveBest (s : L κ E G X) (v : ℝ) : L κ E G X :=
  if s.best < v then { s with bestPars := getParamValues false s.m, best := v } else s

/-- LogLike.cxx:39-46: the restricted energy range excludes all the data. -/
def excluded (w : World κ E G X) (s : L κ E G X) : Prop :=
  s.useEb = true ∧ (w.roi.2 ≤ s.emin ∨ s.emax ≤ w.roi.1)

/-- `value`, LogLike.cxx:36-110. -/
noncomputable def value (w : World κ E G X) (prior : Bool) (s : L κ E G X) : Out (L κ E G X) ℝ :=
  open Classical in
  if excluded w s then .ok s 0
  else match dataLoop w s.events.length 0 s with
    | .throws s' => .throws s'
    | .ub => .ub
    | .ok s' _ =>
      let acc := (npredTerms w s').foldl (fun a x => a.add (-x)) s'.acc
      let t := acc.total
      let v := if prior then s'.m.param.foldl (fun a p => a + w.logPrior p) t.2 else t.2
      .ok (saveBest { s' with acc := t.1 } v) v

/-- The npred part of `syncParams`, LogLike.cxx:345-350, over the sources just found free
by `SourceModel::syncParams`. -/
def refreshFree (w : World κ E G X) (objs : κ → Obj G X) :
    List (κ × Src κ ℝ) → List (κ × ℝ) → List (κ × ℝ)
  | [], np => np
  | (k, src) :: rest, np =>
    refreshFree w objs rest
      (if 0 < numFree src.pars then StdMap.put np k (w.npred src (objs k).expo) else np)

/-- `update_npreds`, LogLike.cxx:392-398. -/
def updateNpreds (w : World κ E G X) (objs : κ → Obj G X) :
    List (κ × Src κ ℝ) → List (κ × ℝ) → List (κ × ℝ)
  | [], np => np
  | (k, src) :: rest, np => updateNpreds w objs rest (StdMap.put np k (w.npred src (objs k).expo))

/-- `LogLike::syncParams`, LogLike.cxx:343-351, the base class part being done already in
`m`. -/
def synced (w : World κ E G X) (s : L κ E G X) (m : M κ ℝ) : L κ E G X :=
  { s with m := m, npreds := if w.newImp then refreshFree w s.objs m.sources s.npreds else s.npreds }

/-- `syncParams`, LogLike.cxx:343-351. -/
def syncParams (w : World κ E G X) (s : L κ E G X) : L κ E G X := synced w s (sync s.m)

/-- A loop of `updateModelSum` over the events, LogLike.cxx:297-301 and 361-364. -/
def touchAll (w : World κ E G X) (o : Obj G X) (src : Src κ ℝ) (k : κ) (useCache : Bool) :
    Nat → List (Ev κ E) → (κ → Nat → Option ℝ) → List (Ev κ E) × (κ → Nat → Option ℝ)
  | _, [], c => ([], c)
  | j, ev :: evs, c =>
    let p := if useCache then touch w o src k j ev c
      else (ev.update k ((fluxDensity w src o ev.e none).1 * w.eff ev.e), c)
    let q := touchAll w o src k useCache (j + 1) evs p.2
    (p.1 :: q.1, q.2)

/-- `addSource`, LogLike.cxx:274-306.  The base class calls `syncParams`, which is
virtual. -/
noncomputable def addSource (w : World κ E G X) (s : L κ E G X) (src : Src κ ℝ) (o : Obj G X) :
    Out (L κ E G X) Unit :=
  match SrcModel.addSource s.m src with
  | .throws m => .throws { s with m := m }
  | .ub => .ub
  | .ok m _ =>
    let s1 := synced w { s with objs := Function.update s.objs src.name o } m
    let useCache := !w.newImp || decide (0 < numFree src.pars)
    if useCache = true ∧ s1.nresp < s1.events.length then .throws s1
    else
      let p := touchAll w o src src.name useCache 0 s1.events s1.cache
      .ok { s1 with events := p.1, cache := p.2,
                    npreds := StdMap.put s1.npreds src.name (w.npred src o.expo),
                    best := noBest } ()

/-- `deleteSource`, LogLike.cxx:308-317. -/
noncomputable def deleteSource (w : World κ E G X) (s : L κ E G X) (n : κ) : Out (L κ E G X) (Src κ ℝ) :=
  let s1 := { s with events := s.events.map (fun ev => ev.delete n), cache := dropCell s.cache n,
                     npreds := StdMap.erase s.npreds n, best := noBest }
  match SrcModel.deleteSource s1.m n with
  | .throws m => .throws { s1 with m := m }
  | .ub => .ub
  | .ok m x => .ok (synced w s1 m) x

/-- The loop of `deleteAllSources`, SourceModel.cxx:223-226, with the virtual
`deleteSource`. -/
noncomputable def deleteLoop (w : World κ E G X) : List κ → L κ E G X → Out (L κ E G X) Unit
  | [], s => .ok s ()
  | n :: ns, s =>
    match deleteSource w s n with
    | .ok s' _ => deleteLoop w ns s'
    | .throws s' => .throws s'
    | .ub => .ub

/-- `deleteAllSources`, SourceModel.cxx:220-228. -/
noncomputable def deleteAllSources (w : World κ E G X) (s : L κ E G X) : Out (L κ E G X) Unit :=
  match deleteLoop w (getSrcNames s.m) s with
  | .ok s' _ => .ok { s' with m := { s'.m with param := [] } } ()
  | .throws s' => .throws s'
  | .ub => .ub

/-- Operations on parameters. -/
inductive ParOp (κ : Type) where
  | setParam (p : Par κ ℝ) (spec : Bool) (n : κ)
  | setTrueValue (pn : κ) (spec : Bool) (n : κ) (v : ℝ)
  | setValues (onlyFree : Bool) (vs : List ℝ)
  | setParams (onlyFree : Bool) (ps : List (Par κ ℝ))
  /-- the user changes a spectrum through the pointer given by `getSource` -/
  | direct (n : κ) (ps : List (Par κ ℝ))
  | sync

/-- The operation of `SourceModel`. -/
def ParOp.toOp : ParOp κ → SrcModel.Op κ ℝ
  | .setParam p b n => .setParam p b n
  | .setTrueValue pn b n v => .setTrueValue pn b n v
  | .setValues f vs => .setValues f vs
  | .setParams f ps => .setParams f ps
  | .direct n ps => .direct n ps
  | .sync => .sync

/-- Whether the operation ends with the virtual `syncParams`. -/
def ParOp.syncs : ParOp κ → Bool
  | .direct _ _ => false
  | _ => true

/-- Operations of `SourceModel` on parameters, SourceModel.cxx:321-412, which end with
the virtual `syncParams` unless they throw; `direct` is a change of a spectrum through the
pointer of the source, with no synchronisation.  (`setParamTrueValue` synchronises twice,
which is the same.) -/
noncomputable def paramOp (w : World κ E G X) (s : L κ E G X) (op : ParOp κ) :
    Out (L κ E G X) Unit :=
  match SrcModel.step s.m op.toOp with
  | .throws m => .throws { s with m := m }
  | .ub => .ub
  | .ok m _ => if op.syncs then .ok (synced w s m) () else .ok { s with m := m } ()

/-- `syncSrcParams`, LogLike.cxx:353-366: the base class version of `syncParams` is
called. -/
def syncSrcParams (w : World κ E G X) (s : L κ E G X) (n : κ) : Out (L κ E G X) Unit :=
  let s1 := { s with m := sync s.m }
  match StdMap.find s1.m.sources n with
  | none => .ok s1 ()
  | some src =>
    let s2 := { s1 with npreds := StdMap.put s1.npreds n (w.npred src (s1.objs n).expo) }
    if s2.nresp < s2.events.length then .throws s2
    else
      let p := touchAll w (s2.objs n) src n true 0 s2.events s2.cache
      .ok { s2 with events := p.1, cache := p.2 } ()

/-- `set_ebounds`, LogLike.cxx:368-385. -/
def setEbounds (w : World κ E G X) (s : L κ E G X) (emin emax : ℝ) : L κ E G X :=
  let objs := fun k => if k ∈ StdMap.keys s.m.sources
    then { (s.objs k) with expo := w.exposure (s.objs k).geo (some (emin, emax)) } else s.objs k
  { s with emin := emin, emax := emax, useEb := true, objs := objs,
           npreds := updateNpreds w objs s.m.sources s.npreds }

/-- `unset_ebounds`, LogLike.cxx:387-390. -/
def unsetEbounds (w : World κ E G X) (s : L κ E G X) : L κ E G X :=
  { s with useEb := false, npreds := updateNpreds w s.objs s.m.sources s.npreds }

/-- `getEvents`, LogLike.cxx:319-324; `EventContainer::getEvents` appends the events of
the file that pass the cuts, EventContainer.cxx:141-153. -/
def getEvents (s : L κ E G X) (es : List E) : L κ E G X :=
  { s with events := s.events ++ es.map (fun e => ⟨e, 0, []⟩),
           nresp := s.events.length + es.length, cache := fun _ _ => none }

/-- `setDir` on a source of the model through its pointer, PointSource.h:121-137: the
exposure is recomputed on the energies of the region of interest, if asked for. -/
def move (w : World κ E G X) (s : L κ E G X) (n : κ) (geo : G) (updateExposure : Bool) : L κ E G X :=
  let o : Obj G X := ⟨geo, if updateExposure then w.exposure geo none else (s.objs n).expo⟩
  { s with objs := Function.update s.objs n o }

/-- `restoreBestFit`, LogLike.cxx:414-417. -/
noncomputable def restoreBestFit (w : World κ E G X) (s : L κ E G X) : Out (L κ E G X) Unit :=
  match paramOp w s (.setValues false s.bestPars) with
  | .ok s' _ => .ok (syncParams w s') ()
  | .throws s' => .throws s'
  | .ub => .ub

/-- `saveCurrentFit`, LogLike.cxx:419-424. -/
noncomputable def saveCurrentFit (w : World κ E G X) (s : L κ E G X) : Out (L κ E G X) Unit :=
  match value w true { syncParams w s with best := noBest } with
  | .ok s' v => .ok (saveBest s' v) ()
  | .throws s' => .throws s'
  | .ub => .ub

/-- The number of counts attributed to a source by `EventContainer::nobs`,
EventContainer.cxx:238-265, for the event: its share of the model sum.  (The response is
computed without the cache.) -/
noncomputable def share (w : World κ E G X) (src : Src κ ℝ) (o : Obj G X) (ev : Ev κ E) : ℝ :=
  (fluxDensity w src o ev.e none).1 * w.eff ev.e / ev.modelSum

/-- The operations of a user. -/
inductive Op (κ E G X : Type) where
  | add (src : Src κ ℝ) (o : Obj G X)
  | delete (n : κ)
  | deleteAll
  | par (op : ParOp κ)
  | syncSrc (n : κ)
  | setEb (emin emax : ℝ)
  | unsetEb
  | read (es : List E)
  | eval (prior : Bool)
  | restore
  | save

/-- One operation. -/
noncomputable def step (w : World κ E G X) (s : L κ E G X) : Op κ E G X → Out (L κ E G X) Unit
  | .add src o => addSource w s src o
  | .delete n => (deleteSource w s n).void
  | .deleteAll => deleteAllSources w s
  | .par op => paramOp w s op
  | .syncSrc n => syncSrcParams w s n
  | .setEb a b => .ok (setEbounds w s a b) ()
  | .unsetEb => .ok (unsetEbounds w s) ()
  | .read es => .ok (getEvents s es) ()
  | .eval p => (value w p s).void
  | .restore => restoreBestFit w s
  | .save => saveCurrentFit w s

/-- A history; exceptions are caught and the object is used on. -/
noncomputable def run (w : World κ E G X) (s : L κ E G X) : List (Op κ E G X) → Option (L κ E G X)
  | [] => some s
  | op :: ops =>
    match step w s op with
    | .ok s' _ => run w s' ops
    | .throws s' => run w s' ops
    | .ub => none

end Verif.Unbinned
