import Verif.StdMap
import Verif.Drm.Model
/-
Model of the binned likelihood object, `src/BinnedLikelihood.cxx`, with its source map
cache, `src/SourceMapCache.cxx` and `src/SourceMap.cxx`: which cached quantities each
call reads, updates or leaves alone.

Simplifications, common to the whole file:
* The counts, weights and response are constants of the object (`Env`); `filled` and
  `first` are `BinnedCountsCache::filledPixels` / `firstPixels` (modelled in
  `Verif.Counts`).
* A source has only spectral parameters, and the likelihood's own list of parameters
  (`m_parameter`) is in step with the sources.
* Source maps are computed, not read from a file, and stay in memory (`clear_model` /
  `reloadIfCleared` are left out), and every source has one (`computePointSources`).
* npred arrays are recomputed when needed; in the C++ they are cached until the model or
  the weights change, which nothing here does.
* `use_single_fixed_map` is on (the default), `m_updateFixedWeights` is true.
* The Kahan accumulators are exact sums (`Verif.Accum`).
-/
namespace Verif.Binned

open Verif.Vec Verif.Edisp Verif.Drm
open Verif.StdMap (find put erase keys)

/-- Constants of a likelihood object. -/
structure Env where
  nebins : Nat
  npix : Nat
  /-- `m_config.edisp_val()` -/
  ev : Int
  rsp : Rsp
  /-- columns of the response, `Drm::col` -/
  cols : List (List ℝ)
  /-- weights map -/
  weights : Option (List ℝ)
  /-- `m_dataCache.data(m_dataCache.has_weights())` -/
  data : List ℝ
  filled : List Nat
  first : List Nat

/-- A spectral parameter. -/
structure Par where
  value : ℝ
  free : Bool
  /-- `log_prior_value` as a function of the value -/
  logPrior : ℝ → ℝ
  /-- `log_prior_deriv` -/
  dLogPrior : ℝ → ℝ

/-- A source. -/
structure Src where
  /-- address of the object -/
  addr : Nat
  useEdisp : Bool
  /-- the source map `make_model` computes, given the number of extra energy bins -/
  tmpl : Nat → List ℝ
  /-- spectral weights (`extractSpectralVals` + `get_spectral_weights`) on the energy
  grid with that many extra bins, as a function of the parameter values -/
  spec : Nat → List ℝ → List (ℝ × ℝ)
  /-- the same weights made from the derivative of the spectrum with respect to a
  parameter (`extractSpectralDerivs` + `get_spectral_weights`) -/
  dspec : Nat → List ℝ → Nat → List (ℝ × ℝ)
  pars : List Par

/-- `getParamValues`. -/
def Src.vals (σ : Src) : List ℝ := σ.pars.map Par.value

/-- `fixedSpectrum`, Source.cxx:205-207. -/
def Src.fixed (σ : Src) : Bool := σ.pars.all (fun p => !p.free)

/-- Positions of the free parameters. -/
def Src.freeIdx (σ : Src) : List Nat :=
  (List.range σ.pars.length).filter (fun i => (σ.pars[i]?.map Par.free).getD false)

/-- A source map with what it remembers about its source. -/
structure MapObj where
  /-- `m_src` -/
  addr : Nat
  /-- `m_config.edisp_val()` of the map -/
  cfg : Int
  map : SrcMap ℝ
  /-- `m_latchedModelPars` -/
  latched : List ℝ
  /-- `m_drm_cache` (its `xi` and `kref` are those of `map`) -/
  cache : Drm.Cache

/-- State of a likelihood object; `ν` are the source names. -/
structure St (ν : Type) where
  /-- `m_sources` -/
  srcs : List (ν × Src)
  /-- `m_srcMapCache.m_srcMaps` -/
  maps : List (ν × MapObj)
  /-- `m_fixedSources` -/
  fixedNames : List ν
  /-- `m_fixedModelCounts` -/
  fixedCounts : List ℝ
  /-- `m_fixed_counts_spec`, `_wt`, `_edisp`, `_edisp_wt` -/
  fixedSpec : Spectra ℝ
  kmin : Nat
  kmax : Nat
  /-- `m_model` -/
  model : List ℝ
  /-- `m_modelIsCurrent` -/
  current : Bool
  /-- `m_srcMapCache.m_config.edisp_val()` -/
  cacheEv : Int

variable {ν : Type}

/-- Four spectra of zeros. -/
def zeroSpectra (n : Nat) : Spectra ℝ :=
  ⟨List.replicate n 0, List.replicate n 0, List.replicate n 0, List.replicate n 0⟩

/-- Constructor, BinnedLikelihood.cxx:114-142. -/
def St.new (e : Env) : St ν :=
  ⟨[], [], [], List.replicate e.filled.length 0, zeroSpectra e.nebins, 0, e.nebins, [], false, e.ev⟩

/-- `drm_cache(true)`: the npred arrays and `Drm_Cache::update` (SourceMap.cxx:494-501). -/
noncomputable def refreshCache (e : Env) (m : MapObj) : Res MapObj := do
  let (np, wn) ← computeNpreds m.map
  let c ← updateCache m.map e.rsp np wn
  .ok { m with map := withCache m.map c, cache := c }

/-- `new SourceMap(src, ...)`, SourceMap.cxx:75-110.  The `Drm_Cache` constructor fills
`xi` with 1 and `kref` with -1 and calls `update`. -/
noncomputable def newMap (e : Env) (cacheEv : Int) (σ : Src) : Res MapObj :=
  let g := computed e.nebins cacheEv σ.useEdisp e.rsp.bins
  refreshCache e
    { addr := σ.addr
      cfg := cacheEv
      map :=
        { toGeom := g
          npix := e.npix
          model := σ.tmpl g.eb
          specWts := σ.spec g.eb σ.vals
          drmCols := e.cols
          xi := List.replicate e.nebins 1
          kref := List.replicate e.nebins (-1)
          weights := e.weights }
      latched := []
      cache := ⟨[], [], [], [], [], []⟩ }

/-- `SourceMap::setSource`, SourceMap.cxx:380-395, with `resetSourceData` :866-875 and
`set_energies` :838-847: the model and the latched parameters stay. -/
def setSource (m : MapObj) (σ : Src) : MapObj :=
  if m.addr = σ.addr then m
  else { m with addr := σ.addr, map := { m.map with
    ev := if σ.useEdisp then m.cfg else 0
    off := (m.map.eb : Int) - m.map.drmBins
    specWts := [] } }

/-- `SourceMap::setSpectralValues`, SourceMap.cxx:405-415. -/
def setSpectral (m : MapObj) (σ : Src) (latch : Bool) : MapObj :=
  { m with map := { m.map with specWts := σ.spec m.map.eb σ.vals },
           latched := if latch then σ.vals else m.latched }

/-- `SourceMap::spectrum_changed`, SourceMap.cxx:432-445. -/
noncomputable def spectrumChanged (m : MapObj) (σ : Src) : Bool :=
  open Classical in decide (σ.vals ≠ m.latched)

section
variable [LinearOrder ν]

/-- Keep a map that was modified in place. -/
def St.putMap (st : St ν) (n : ν) (m : MapObj) : St ν := { st with maps := put st.maps n m }

/-- `SourceMapCache::getSourceMap`, SourceMapCache.cxx:112-148. -/
noncomputable def getMap (e : Env) (st : St ν) (n : ν) (σ : Src) : Res (St ν × MapObj) :=
  match find st.maps n with
  | some m => .ok (st.putMap n (setSource m σ), setSource m σ)
  | none => do
    let m ← newMap e st.cacheEv σ
    .ok (st.putMap n m, m)

/-- `SourceMapCache::edisp_val(&src)`, SourceMapCache.cxx:459-465. -/
def edispFlag (st : St ν) (σ : Src) : Int := if σ.useEdisp then st.cacheEv else -1

/-- `NpredValue(srcName, weighted)`, BinnedLikelihood.cxx:384-396 and
SourceMapCache.cxx:86-103. -/
noncomputable def npredValue (e : Env) (st : St ν) (n : ν) (σ : Src) (weighted : Bool) :
    Res (St ν × ℝ) := do
  let (st, m) ← getMap e st n σ
  let m ← refreshCache e (setSpectral m σ false)
  let v ← summedCounts m.cache st.kmin st.kmax (edispFlag st σ) weighted
  .ok (st.putMap n m, v)

/-- `BinnedLikelihood::addSourceCounts`, BinnedLikelihood.cxx:1021-1055, with
`FitUtils::addSourceCounts`. -/
noncomputable def addCounts (e : Env) (st : St ν) (mc : List ℝ) (n : ν) (σ : Src)
    (subtract latch : Bool) : Res (St ν × MapObj × List ℝ) :=
  if mc.length ≠ e.filled.length then .throws
  else do
    let (st, m) ← getMap e st n σ
    let m := setSpectral m σ latch
    let mc ← addSourceCounts m.map e.filled e.first subtract mc
    .ok (st.putMap n m, m, mc)

/-- `BinnedLikelihood::addFixedNpreds`, BinnedLikelihood.cxx:1057-1063: the spectral weights
are those of the map. -/
noncomputable def addNpreds (m : MapObj) (subtract : Bool) (sp : Spectra ℝ) : Res (Spectra ℝ) := do
  let (np, wn) ← computeNpreds m.map
  addFixedNpreds m.map np wn subtract sp

/-- `addFixedSource`, BinnedLikelihood.cxx:864-902. -/
noncomputable def addFixed (e : Env) (st : St ν) (n : ν) (σ : Src) : Res (St ν) :=
  if n ∈ st.fixedNames then .throws
  else do
    let st := { st with fixedNames := st.fixedNames ++ [n] }
    let (st, m, mc) ← addCounts e st st.fixedCounts n σ false true
    let sp ← addNpreds m false st.fixedSpec
    .ok { st with fixedCounts := mc, fixedSpec := sp }

/-- The loop of `buildFixedModelWts`, BinnedLikelihood.cxx:705-725 (`process_all` false). -/
noncomputable def buildLoop (e : Env) : List (ν × Src) → St ν → Res (St ν)
  | [], st => .ok st
  | (n, σ) :: rest, st =>
    if σ.fixed then do
      let st ← addFixed e st n σ
      buildLoop e rest st
    else do
      let (st, _) ← getMap e st n σ
      buildLoop e rest st

/-- `buildFixedModelWts`, BinnedLikelihood.cxx:685-728. -/
noncomputable def buildFixed (e : Env) (st : St ν) : Res (St ν) :=
  buildLoop e st.srcs
    { st with fixedNames := []
              fixedCounts := List.replicate e.filled.length 0
              fixedSpec := zeroSpectra e.nebins }

/-- Names of the sources with no free parameter. -/
def fixedNow (srcs : List (ν × Src)) : List ν := keys (srcs.filter (fun x => x.2.fixed))

/-- Last loop of `fixedModelUpdated`, BinnedLikelihood.cxx:769-787. -/
noncomputable def changedLoop (e : Env) : List (ν × Src) → St ν → Bool → Res (St ν × Bool)
  | [], st, b => .ok (st, b)
  | (n, σ) :: rest, st, b =>
    if σ.fixed then do
      let (st, m) ← getMap e st n σ
      changedLoop e rest st (b || spectrumChanged m σ)
    else changedLoop e rest st b

/-- `fixedModelUpdated`, BinnedLikelihood.cxx:732-790.  Left out: `setSaveModel`, the set
`m_changingSources`, and the source maps fetched only to call `setSaveModel` (for a source
missing from the cached list the last loop fetches the map too). -/
noncomputable def fixedModelUpdated (e : Env) (st : St ν) : Res (St ν × Bool) :=
  if st.fixedSpec.counts.length = 0 ∧ st.fixedNames ≠ [] then .ok (st, true)
  else
    let now := fixedNow st.srcs
    let changed := now.any (fun n => decide (st.fixedNames.count n ≠ 1)) ||
      decide (now.length ≠ st.fixedNames.length)
    changedLoop e st.srcs st changed

/-- `std::copy(v.begin(), v.end(), out.begin())` onto a vector of `n` zeros. -/
def copyOnZeros (v : List ℝ) (n : Nat) : Res (List ℝ) :=
  if v.length ≤ n then .ok (v ++ List.replicate (n - v.length) 0) else .ub

/-- Loop over the sources of `computeModelMap_internal`, BinnedLikelihood.cxx:563-577. -/
noncomputable def evalLoop (e : Env) (weighted : Bool) :
    List (ν × Src) → St ν → List ℝ → ℝ → Res (St ν × List ℝ × ℝ)
  | [], st, mc, np => .ok (st, mc, np)
  | (n, σ) :: rest, st, mc, np => do
    let (st, v) ← npredValue e st n σ weighted
    if n ∈ st.fixedNames then evalLoop e weighted rest st mc np
    else do
      let (st, _, mc) ← addCounts e st mc n σ false false
      evalLoop e weighted rest st mc (np + v)

/-- Copy of the counts in the selected energy bins, BinnedLikelihood.cxx:579-590. -/
noncomputable def selectModel (e : Env) (kmin kmax : Nat) (mc : List ℝ) : Res (List ℝ) :=
  loop (fun k model => do
    let a ← vget e.first k
    let b ← vget e.first (k + 1)
    loop (fun j model => do
      let x ← vget mc j
      vset model j x) a (b - a) model) kmin (kmax - kmin) (List.replicate e.filled.length 0)

/-- Sum of the fixed counts over the selected bins, BinnedLikelihood.cxx:552-560. -/
noncomputable def fixedNpred (st : St ν) (weighted : Bool) : Res ℝ :=
  loop (fun k acc => do
    let x ← vget (if weighted then st.fixedSpec.edispWt else st.fixedSpec.edisp) k
    .ok (acc + x)) st.kmin (st.kmax - st.kmin) 0

/-- First lines of `computeModelMap_internal`: bring the fixed model up to date. -/
noncomputable def updateFixed (e : Env) (st : St ν) : Res (St ν) := do
  let (st, changed) ← fixedModelUpdated e st
  if changed then buildFixed e st else .ok st

/-- `computeModelMap_internal`, BinnedLikelihood.cxx:534-592. -/
noncomputable def computeModel (e : Env) (weighted : Bool) (st : St ν) : Res (St ν × ℝ) := do
  let st ← updateFixed e st
  let mc ← copyOnZeros st.fixedCounts e.filled.length
  let np ← fixedNpred st weighted
  let (st, mc, np) ← evalLoop e weighted st.srcs st mc np
  let model ← selectModel e st.kmin st.kmax mc
  .ok ({ st with model := model, current := true }, np)

/-- The loop over filled pixels of `value`, BinnedLikelihood.cxx:170-185. -/
noncomputable def dataTerm (e : Env) (st : St ν) : Res ℝ :=
  loop (fun k acc => do
    let a ← vget e.first k
    let b ← vget e.first (k + 1)
    loop (fun j acc => do
      let m ← vget st.model j
      if m ≤ 0 then .ok acc
      else do
        let ipix ← vget e.filled j
        let d ← vget e.data (k * e.npix + ipix)
        .ok (acc + d * Real.log m)) a (b - a) acc) st.kmin (st.kmax - st.kmin) 0

/-- Sum of the log-priors of all parameters. -/
noncomputable def priorSum (srcs : List (ν × Src)) : ℝ :=
  (srcs.map (fun x => (x.2.pars.map (fun p => p.logPrior p.value)).sum)).sum

/-- `value`, BinnedLikelihood.cxx:160-203 (the best-fit bookkeeping is modelled in
`Verif.BestFit`). -/
noncomputable def value (e : Env) (st : St ν) : Res (St ν × ℝ) := do
  let (st, npred) ← computeModel e true st
  let d ← dataTerm e st
  .ok (st, d - npred + priorSum st.srcs)

/-- `data_over_model`, BinnedLikelihood.cxx:246-258. -/
noncomputable def dataOverModel (e : Env) (st : St ν) : Res (List ℝ) :=
  loop (fun k v => do
    let a ← vget e.first k
    let b ← vget e.first (k + 1)
    loop (fun j v => do
      let ipix ← vget e.filled j
      let m ← vget st.model j
      let x ← if 0 < m then do
          let d ← vget e.data (k * e.npix + ipix)
          .ok (d / m)
        else .ok 0
      vset v j x) a (b - a) v) st.kmin (st.kmax - st.kmin) (List.replicate e.filled.length 0)

/-- Pixel part of one bin of `addFreeDerivs`, FitUtils.cxx:2186-2205. -/
noncomputable def derivPixels (e : Env) (s : SrcMap ℝ) (wts : List (ℝ × ℝ)) (dom : List ℝ)
    (k : Nat) (acc : ℝ) : Res ℝ := do
  let a ← vget e.first k
  let b ← vget e.first (k + 1)
  loop (fun j acc => do
    let d ← vget dom j
    if d ≤ 0 then .ok acc
    else do
      let ipix ← vget e.filled j
      let c ← modelCounts s wts k ipix
      .ok (acc + d * c)) a (b - a) acc

/-- `addFreeDerivs` for one parameter, FitUtils.cxx:2176-2225. -/
noncomputable def freeDeriv (e : Env) (s : SrcMap ℝ) (wts : List (ℝ × ℝ)) (dom : List ℝ)
    (kmin kmax : Nat) : Res ℝ := do
  let (np, wn) ← computeNpreds s
  loop (fun k acc => do
    let (k1, k2, col) ← getEdispConstants s k
    let acc ← derivPixels e s wts dom k acc
    let n ← npredCounts s np wn wts col k k1 k2
    .ok (acc - n.2)) kmin (kmax - kmin) 0

/-- Derivatives for the sources not in the cached fixed list, one after the other,
BinnedLikelihood.cxx:223-236 and 262-274. -/
noncomputable def derivLoop (e : Env) (dom : List ℝ) :
    List (ν × Src) → St ν → Res (St ν × List ℝ)
  | [], st => .ok (st, [])
  | (n, σ) :: rest, st =>
    if n ∈ st.fixedNames then derivLoop e dom rest st
    else do
      let (st, m) ← getMap e st n σ
      let m := setSpectral m σ false
      let ds ← σ.freeIdx.mapM (fun i =>
        freeDeriv e m.map (σ.dspec m.map.eb σ.vals i) dom st.kmin st.kmax)
      let (st, rest) ← derivLoop e dom rest (st.putMap n m)
      .ok (st, ds ++ rest)

/-- Derivatives of the log-priors of the free parameters in order. -/
noncomputable def priorDerivs (srcs : List (ν × Src)) : List ℝ :=
  (srcs.map (fun x => (x.2.pars.filter Par.free).map (fun p => p.dLogPrior p.value))).flatten

/-- The model is computed if it is flagged as out of date, BinnedLikelihood.cxx:213-216. -/
noncomputable def freshModel (e : Env) (st : St ν) : Res (St ν × ℝ) :=
  if st.current then .ok (st, 0) else computeModel e true st

/-- `getFreeDerivs`, BinnedLikelihood.cxx:205-292.  The result has one entry per free
parameter; those the loop over sources does not reach stay 0, and a write past the end is
undefined behaviour. -/
noncomputable def getFreeDerivs (e : Env) (st : St ν) : Res (St ν × List ℝ) := do
  let (st, _) ← freshModel e st
  let dom ← dataOverModel e st
  let (st, ds) ← derivLoop e dom st.srcs st
  let pr := priorDerivs st.srcs
  if pr.length < ds.length then .ub
  else .ok (st, List.zipWith (· + ·) (ds ++ List.replicate (pr.length - ds.length) 0) pr)

/-! ### calls that change the model -/

/-- `addSource`, BinnedLikelihood.cxx:323-339 and SourceModel.cxx:197-206 (which throws if
the name is in use). -/
noncomputable def addSource (e : Env) (st : St ν) (n : ν) (σ : Src) : Res (St ν) :=
  if n ∈ keys st.srcs then .throws
  else
    let st := { st with srcs := put st.srcs n σ }
    if σ.fixed then addFixed e st n σ
    else do
      let (st, _) ← getMap e st n σ
      .ok st

/-- The fixed-model part of `deleteSource`, BinnedLikelihood.cxx:354-364.  A source of the
cached list that is no longer in the model makes `source()` throw. -/
noncomputable def subtractFixed (e : Env) (st : St ν) (n : ν) : Res (St ν) :=
  if n ∈ st.fixedNames then
    match find st.srcs n with
    | none => .throws
    | some σ => do
      let (st, mp, mc) ← addCounts e st st.fixedCounts n σ true false
      let sp ← addNpreds mp true st.fixedSpec
      .ok { st with fixedCounts := mc, fixedSpec := sp, fixedNames := st.fixedNames.erase n }
  else .ok st

/-- `deleteSource`, BinnedLikelihood.cxx:352-372 and SourceModel.cxx:208-218. -/
noncomputable def deleteSource (e : Env) (st : St ν) (n : ν) : Res (St ν) :=
  if n ∈ keys st.srcs then do
    let st ← subtractFixed e st n
    .ok { st with srcs := erase st.srcs n }
  else .throws

/-- Change the parameters of a source: through `setParam` / the source's own spectrum
(`sync = false`) or through the calls that also reset `m_modelIsCurrent`
(`setParamValues`, `setFreeParamValues`, `syncSrcParams`; BinnedLikelihood.cxx:294-304,
378-382). -/
def setPars (st : St ν) (n : ν) (ps : List Par) (sync : Bool) : Res (St ν) :=
  match find st.srcs n with
  | none => .throws
  | some σ => .ok { st with srcs := put st.srcs n { σ with pars := ps },
                            current := if sync then false else st.current }

/-- `set_klims`, BinnedLikelihood.h:205-210. -/
def setKlims (st : St ν) (kmin kmax : Nat) : St ν :=
  { st with kmin := kmin, kmax := kmax, current := false }

/-- `set_edisp_val`, BinnedLikelihood.h:225-233. -/
def setEdispVal (e : Env) (st : St ν) (ev : Int) : St ν :=
  if ev = e.ev then st
  else { st with cacheEv := ev, fixedCounts := [], fixedSpec := ⟨[], [], [], []⟩ }

/-- Calls of a history. -/
inductive Op (ν : Type) where
  | addSource (n : ν) (σ : Src)
  | deleteSource (n : ν)
  | setPars (n : ν) (ps : List Par) (sync : Bool)
  | setKlims (kmin kmax : Nat)
  | value
  | getFreeDerivs

/-- One call. -/
noncomputable def step (e : Env) (st : St ν) : Op ν → Res (St ν)
  | .addSource n σ => addSource e st n σ
  | .deleteSource n => deleteSource e st n
  | .setPars n ps sync => setPars st n ps sync
  | .setKlims a b => .ok (setKlims st a b)
  | .value => do
    let (st, _) ← value e st
    .ok st
  | .getFreeDerivs => do
    let (st, _) ← getFreeDerivs e st
    .ok st

/-- A history; a call that throws leaves the object as it was (in the histories considered
the only exceptions are those of `addSource` for a name in use, `deleteSource` and
parameter changes for an unknown name, all raised before any change). -/
noncomputable def run (e : Env) (st : St ν) : List (Op ν) → Res (St ν)
  | [] => .ok st
  | op :: ops => match step e st op with
    | .ok st' => run e st' ops
    | .throws => run e st ops
    | .ub => .ub

end

end Verif.Binned
