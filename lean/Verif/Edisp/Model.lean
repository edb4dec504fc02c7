import Verif.Vec
import Mathlib.Algebra.Order.Field.Basic
/-
Model of the energy-dispersion bookkeeping of the binned likelihood:
`src/SourceMap.cxx` (dispersion settings, npred arrays), `src/FitUtils.cxx` (index
ranges, per-pixel and per-bin counts, model map) and the settings carried by
`Likelihood/BinnedLikelihood.h` / `Likelihood/SourceMapCache.h`.

`K` stands for the floating-point numbers and is an arbitrary ordered field.
-/
namespace Verif.Edisp

open Verif.Vec

/-- Dispersion settings of a source map, `Likelihood/SourceMap.h`:448-457, plus the
number of measured energy bins and the number of extra bins of the response matrix
(`Drm::edisp_bins`). -/
structure Geom where
  /-- measured energy bins, `BinnedCountsCache::num_ebins` -/
  nebins : Nat
  /-- `m_edisp_val`: < 0 rescaling, 0 none, > 0 full method over that many bins -/
  ev : Int
  /-- `m_edisp_bins`: extra energy bins of the map at each end -/
  eb : Nat
  /-- `m_edisp_offset` -/
  off : Int
  /-- `Drm::edisp_bins` -/
  drmBins : Nat
  deriving DecidableEq

/-- `BinnedLikeConfig::edisp_bins`, BinnedConfig.h:212. -/
def configBins (ev : Int) : Nat := ev.toNat

/-- Settings of a computed source map: constructor SourceMap.cxx:77-110 and
`set_energies` :838-847. -/
def computed (nebins : Nat) (cfgEv : Int) (useEdisp : Bool) (drmBins : Nat) : Geom :=
  let ev := if useEdisp then cfgEv else 0
  let eb := if useEdisp then configBins cfgEv else 0
  ⟨nebins, ev, eb, (eb : Int) - drmBins, drmBins⟩

/-- Settings of a source map read from a FITS image with `nEvals` planes: constructor
SourceMap.cxx:112-145 and `readImage` :639-661.  With fewer planes than energies the
unsigned subtraction wraps around and the copies of `expand_energies` leave their
vectors (undefined behaviour). -/
def readImage (nebins : Nat) (cfgEv : Int) (useEdisp : Bool) (drmBins nEvals : Nat) : Res Geom :=
  let ev := if useEdisp then cfgEv else 0
  if nEvals < nebins + 1 then .ub
  else
    let eb := (nEvals - (nebins + 1)) / 2
    if eb < ev.toNat then .throws
    else .ok ⟨nebins, ev, eb, (eb : Int) - drmBins, drmBins⟩

/-- Settings of a source map read from a HEALPix table: constructor SourceMap.cxx:112-145
and `readTable_healpix` :663-694, which leaves `m_edisp_offset` at 0 and does not check
the number of planes. -/
def readHealpix (nebins : Nat) (cfgEv : Int) (useEdisp : Bool) (drmBins nEnergy : Nat) : Res Geom :=
  let ev := if useEdisp then cfgEv else 0
  if nEnergy < nebins + 1 then .ub
  else .ok ⟨nebins, ev, (nEnergy - (nebins + 1)) / 2, 0, drmBins⟩

/-- The dispersion settings a `BinnedLikelihood` carries: its own configuration, the one
of its `SourceMapCache`, and the number of extra bins of the response matrix. -/
structure Like where
  cfgEv : Int
  cacheEv : Int
  drmBins : Nat
  deriving DecidableEq

/-- Constructor: both configurations are the given one, the response matrix has
`drm_bins() = |edisp_val|` extra bins (BinnedLikelihood.cxx:40-92, BinnedConfig.h:213). -/
def Like.new (ev : Int) : Like := ⟨ev, ev, ev.natAbs⟩

/-- `BinnedLikelihood::set_edisp_val`, BinnedLikelihood.h:225-233 (the cached fixed-model
vectors it also clears are modelled in `Verif.Binned`). -/
def Like.setEdispVal (l : Like) (ev : Int) : Like :=
  if ev = l.cfgEv then l else { l with cacheEv := ev }

/-- Settings of a source map made by `SourceMapCache::createSourceMap` from now on. -/
def Like.newMap (l : Like) (nebins : Nat) (useEdisp : Bool) : Geom :=
  computed nebins l.cacheEv useEdisp l.drmBins

/-- A source map with everything the counts computations read. -/
structure SrcMap (K : Type) extends Geom where
  npix : Nat
  /-- `m_model`: planes of `npix` pixels, one per (expanded) energy -/
  model : List K
  /-- `m_specWts` -/
  specWts : List (K × K)
  /-- `Drm::col(k)` for each measured bin -/
  drmCols : List (List K)
  /-- `Drm_Cache::m_xi` -/
  xi : List K
  /-- `Drm_Cache::m_kref` -/
  kref : List Int
  /-- `WeightMap::model()`, if there is a weights map -/
  weights : Option (List K)
  deriving DecidableEq

/-- `n_energies()`: size of the expanded energy grid. -/
def Geom.nEnergies (g : Geom) : Nat := g.nebins + 1 + 2 * g.eb

/-- An index computed in signed arithmetic used as `size_t`.  A negative value would
wrap around to a huge one; it is reported as undefined behaviour. -/
def asIndex (i : Int) : Res Nat := if 0 ≤ i then .ok i.toNat else .ub

section
variable {K : Type} [Field K] [LinearOrder K]

/-- `get_edisp_range`, FitUtils.cxx:1932-1943. -/
def getEdispRange (g : Geom) (k : Nat) : Res (Nat × Nat) :=
  if 0 < g.ev then do
    let kmin ← asIndex (k + (g.eb - g.ev))
    let kmax ← asIndex (k + 1 + (g.eb + g.ev))
    .ok (kmin, kmax)
  else .ok (k, k + 1)

/-- `std::copy(v.begin() + first, v.begin() + last, out)`: undefined behaviour outside
the vector. -/
def copyRange (v : List K) (first last : Int) : Res (List K) :=
  if 0 ≤ first ∧ first ≤ last ∧ last ≤ v.length then
    .ok ((v.drop first.toNat).take (last - first).toNat)
  else .ub

/-- `get_edisp_constants`, FitUtils.cxx:1946-1980.  Returns `kmin`, `kmax`, `edisp_col`. -/
def getEdispConstants (s : SrcMap K) (k : Nat) : Res (Nat × Nat × List K) := do
  let (kmin, kmax) ← getEdispRange s.toGeom k
  if s.ev = 0 then .ok (kmin + s.eb, kmax + s.eb, [1])
  else if s.ev < 0 then do
    let kref ← vget s.kref k
    let xi ← vget s.xi k
    if 0 ≤ kref then .ok (kref.toNat + s.eb, kref.toNat + s.eb + 1, [xi])
    else .ok (kmin + s.eb, kmax + s.eb, [xi])
  else do
    let drmCol ← vget s.drmCols k
    let col ← copyRange drmCol ((kmin : Int) - s.off) ((kmax : Int) - s.off)
    .ok (kmin, kmax, col)

/-- `model_counts_contribution`, FitUtils.cxx:1983-1993. -/
def modelCountsContribution (s : SrcMap K) (wts : List (K × K)) (xi : K) (kref ipix : Nat) :
    Res K := do
  let jmin := kref * s.npix + ipix
  let m1 ← vget s.model jmin
  let w ← vget wts kref
  let m2 ← vget s.model (jmin + s.npix)
  .ok (xi * (m1 * w.1 + m2 * w.2))

/-- `npred_contribution`, FitUtils.cxx:1995-2009. -/
def npredContribution (npreds : List K) (wnpred : K × K) (wts : List (K × K)) (xi : K)
    (kref : Nat) : Res (K × K) := do
  let n0 ← vget npreds kref
  let w ← vget wts kref
  let n1 ← vget npreds (kref + 1)
  .ok (xi * (n0 * w.1 + n1 * w.2), xi * (wnpred.1 * w.1 + wnpred.2 * w.2))

/-- `model_counts_edisp`, FitUtils.cxx:2012-2032 (`idx = k - kmin`). -/
def modelCountsEdisp (s : SrcMap K) (wts : List (K × K)) (col : List K)
    (ipix kmin kmax : Nat) : Res K :=
  loop (fun idx acc => do
    let k := kmin + idx
    let m1 ← vget s.model (k * s.npix + ipix)
    let w ← vget wts k
    let m2 ← vget s.model ((k + 1) * s.npix + ipix)
    let c ← vget col idx
    .ok (acc + c * (m1 * w.1 + m2 * w.2))) 0 (kmax - kmin) 0

/-- `npred_edisp`, FitUtils.cxx:2035-2056. -/
def npredEdisp (npreds : List K) (wnpreds : List (K × K)) (wts : List (K × K)) (col : List K)
    (kmin kmax : Nat) : Res (K × K) :=
  loop (fun idx acc => do
    let k := kmin + idx
    let n0 ← vget npreds k
    let w ← vget wts k
    let n1 ← vget npreds (k + 1)
    let c ← vget col idx
    let wn ← vget wnpreds idx
    .ok (acc + (c * (n0 * w.1 + n1 * w.2), c * (wn.1 * w.1 + wn.2 * w.2)))) 0 (kmax - kmin) 0

/-- The choice made at each use: `edisp_val() > 0 ? model_counts_edisp : model_counts_contribution`
(FitUtils.cxx:2080-2082, 2195-2197, 2256-2258). -/
def modelCounts (s : SrcMap K) (wts : List (K × K)) (k ipix : Nat) : Res K := do
  let (kmin, kmax, col) ← getEdispConstants s k
  if 0 < s.ev then modelCountsEdisp s wts col ipix kmin kmax
  else do
    let c ← vget col 0
    modelCountsContribution s wts c kmin ipix

/-- `vect.at(i)`. -/
def vat {α : Type} (l : List α) (i : Nat) : Res α :=
  match l[i]? with
  | some a => .ok a
  | none => .throws

/-- The same choice for the predicted counts of a bin (FitUtils.cxx:2129-2139, 2208-2214,
Drm.cxx:364-373); `col` is the vector of dispersion factors to use. -/
def npredCounts (s : SrcMap K) (npreds : List K) (wnpreds : List (List (K × K)))
    (wts : List (K × K)) (col : List K) (k kmin kmax : Nat) : Res (K × K) := do
  let row ← vat wnpreds k
  if 0 < s.ev then npredEdisp npreds row wts col kmin kmax
  else do
    let r0 ← vat row 0
    let c ← vget col 0
    npredContribution npreds r0 wts c kmin

/-- Weight of pixel `j` in measured bin `k` (SourceMap.cxx:265, 330). -/
def weightVal (s : SrcMap K) (k j : Nat) : Res K :=
  match s.weights with
  | none => .ok 1
  | some w => vget w (k * s.npix + j)

/-- The range of planes entering the weighted npreds of measured bin `kmeas`
(SourceMap.cxx:250-254). -/
def npredRange (s : SrcMap K) (kmeas : Nat) : Res (Nat × Nat) := do
  let (kmin, kmax) ← getEdispRange s.toGeom kmeas
  if s.ev ≤ 0 then .ok (kmin + s.eb, kmax + s.eb) else .ok (kmin, kmax)

/-- Inner loop of `computeNpredArray`, SourceMap.cxx:266-273. -/
def addWeighted (s : SrcMap K) (w : K) (j kmin n : Nat) (row : List (K × K)) :
    Res (List (K × K)) :=
  loop (fun i row => do
    let a ← vget s.model ((kmin + i) * s.npix + j)
    let b ← vget s.model ((kmin + i) * s.npix + j + s.npix)
    let r ← vat row i
    vset row i (r + (w * a, w * b))) 0 n row

/-- Body of the loop over energy planes of `computeNpredArray`, SourceMap.cxx:243-276,
for plane `k`: the plane's npred, and its row of weighted npreds (empty if the plane is
not one of the measured bins).  The C++ accumulates directly in `m_npreds[k]` and
`m_weighted_npreds[kmeas]`, which no other plane touches. -/
def planeNpred (s : SrcMap K) (k : Nat) : Res (K × List (K × K)) :=
  if s.eb ≤ k ∧ k < s.eb + s.nebins then do
    let (kmin, kmax) ← npredRange s (k - s.eb)
    loop (fun j st => do
      let m0 ← vget s.model (k * s.npix + j)
      let w ← weightVal s (k - s.eb) j
      let row ← addWeighted s w j kmin (kmax - kmin) st.2
      .ok (st.1 + m0, row)) 0 s.npix (0, List.replicate (kmax - kmin) (0, 0))
  else
    loop (fun j st => do
      let m0 ← vget s.model (k * s.npix + j)
      .ok (st.1 + m0, st.2)) 0 s.npix (0, [])

/-- `SourceMap::computeNpredArray`, SourceMap.cxx:212-280: `m_npreds` and
`m_weighted_npreds`. -/
def computeNpreds (s : SrcMap K) : Res (List K × List (List (K × K))) := do
  let rows ← (List.range s.nEnergies).mapM (planeNpred s)
  let wn ← (List.range s.nebins).mapM (fun k => do
    let r ← vget rows (k + s.eb)
    .ok r.2)
  .ok (rows.map Prod.fst, wn)

/-- The four counts spectra of `addFixedNpreds`. -/
structure Spectra (K : Type) where
  counts : List K
  countsWt : List K
  edisp : List K
  edispWt : List K
  deriving DecidableEq

/-- `vect[k] += x`. -/
def addAt (v : List K) (k : Nat) (x : K) : Res (List K) := do
  let a ← vget v k
  vset v k (a + x)

/-- `addFixedNpreds`, FitUtils.cxx:2090-2156. -/
def addFixedNpreds (s : SrcMap K) (npreds : List K) (wnpreds : List (List (K × K)))
    (subtract : Bool) (sp : Spectra K) : Res (Spectra K) :=
  let ones := List.replicate (2 * s.eb + 1) (1 : K)
  let sign : K := if subtract then -1 else 1
  loop (fun k sp => do
    let (kmin, kmax, col) ← getEdispConstants s k
    let c ← npredCounts s npreds wnpreds s.specWts ones k kmin kmax
    let e ← npredCounts s npreds wnpreds s.specWts col k kmin kmax
    let a ← addAt sp.counts k (sign * c.1)
    let b ← addAt sp.countsWt k (sign * c.2)
    let c' ← addAt sp.edisp k (sign * e.1)
    let d ← addAt sp.edispWt k (sign * e.2)
    .ok ⟨a, b, c', d⟩) 0 s.nebins sp

/-- `mask && mask->model()[j] <= 0.` of `updateModelMap`, FitUtils.cxx:2252-2255. -/
def masked (s : SrcMap K) (useMask : Bool) (j : Nat) : Res Bool :=
  if useMask then
    match s.weights with
    | none => .ok false
    | some w => do
      let x ← vget w j
      .ok (decide (x ≤ 0))
  else .ok false

/-- `updateModelMap`, FitUtils.cxx:2230-2263.  The dispersion constants, computed once
per plane in the C++, are recomputed by `modelCounts` for each pixel. -/
def updateModelMap (s : SrcMap K) (useMask : Bool) (map : List K) : Res (List K) :=
  loop (fun k map =>
    loop (fun ipix map => do
      let j := k * s.npix + ipix
      let m ← masked s useMask j
      if m then .ok map
      else do
        let c ← modelCounts s s.specWts k ipix
        addAt map j c) 0 s.npix map) 0 s.nebins map

/-- `addSourceCounts`, FitUtils.cxx:2058-2088; `filled` is the list of filled pixels,
`first` the offsets of each plane in it. -/
def addSourceCounts (s : SrcMap K) (filled first : List Nat) (subtract : Bool) (mc : List K) :
    Res (List K) :=
  let sign : K := if subtract then -1 else 1
  loop (fun k mc => do
    let a ← vget first k
    let b ← vget first (k + 1)
    loop (fun j mc => do
      let ipix ← vget filled j
      let c ← modelCounts s s.specWts k ipix
      addAt mc j (sign * c)) a (b - a) mc) 0 s.nebins mc

/-! ### sparse storage -/

/-- Sizes of the rows allocated by `computeNpredArray_sparse`, SourceMap.cxx:307-320
(only the difference `kmax - kmin` is used, so the shift by the offset drops out). -/
def sparseRows (s : SrcMap K) : Res (List (List (K × K))) :=
  (List.range s.nebins).mapM (fun k => do
    let (kmin, kmax) ← getEdispRange s.toGeom k
    .ok (List.replicate (kmax - kmin) (0, 0)))

/-- Body of the loop over the stored entries, SourceMap.cxx:322-341.  `read` is
`SparseVector::operator[]` (0 for entries not stored). -/
def sparseStep (s : SrcMap K) (read : Nat → K) (e : Nat × K)
    (st : List K × List (List (K × K))) : Res (List K × List (List (K × K))) := do
  let kTrue := e.1 / s.npix
  let j := e.1 % s.npix
  let np ← addAt st.1 kTrue e.2
  if kTrue < s.eb ∨ s.eb + s.nebins ≤ kTrue then .ok (np, st.2)
  else do
    let kmeas := kTrue - s.eb
    let w ← weightVal s kmeas j
    let (kmin, kmax) ← getEdispRange s.toGeom kmeas
    let row ← vat st.2 kmeas
    let row ← loop (fun i (row : List (K × K)) => do
      let r ← vat row i
      vset row i (r + (w * read ((kmin + i) * s.npix + j),
        w * read ((kmin + i) * s.npix + j + s.npix)))) 0 (kmax - kmin) row
    let wn ← vset st.2 kmeas row
    .ok (np, wn)

/-- Loop over the stored entries. -/
def sparseLoop (s : SrcMap K) (read : Nat → K) :
    List (Nat × K) → List K × List (List (K × K)) → Res (List K × List (List (K × K)))
  | [], st => .ok st
  | e :: es, st => do
    let st ← sparseStep s read e st
    sparseLoop s read es st

/-- Entries stored in sparse form for a dense vector: the non-zero elements with their
index, in increasing order (what `fill_from_vect` yields, see `Verif.Sparse`). -/
def storedEntries (v : List K) : List (Nat × K) :=
  (List.range v.length).filterMap (fun i =>
    match v[i]? with
    | some x => if x = 0 then none else some (i, x)
    | none => none)

/-- `computeNpredArray_sparse`, SourceMap.cxx:282-342, for the map whose dense form is
`s.model`. -/
def computeNpredsSparse (s : SrcMap K) : Res (List K × List (List (K × K))) := do
  let rows ← sparseRows s
  sparseLoop s (val s.model) (storedEntries s.model) (List.replicate s.nEnergies 0, rows)

end

end Verif.Edisp
