import Mathlib.Tactic.Common
import Verif.Basic
import Verif.Readd.Types
/-
Model of the adding, deleting and moving of sources in a binned likelihood and of the maps that are
kept of them: `BinnedLikelihood::addSource`, `deleteSource`, `addFixedSource`, `addSourceCounts`
(src/BinnedLikelihood.cxx:323-372, 864-905, 1021-1063), the cache of the maps
(src/SourceMapCache.cxx:112-159, 221-246, 336-348), `SourceMap::setSource`, `make_model`,
`reloadIfCleared`, `resetSourceData`, `clear_model` (src/SourceMap.cxx:76-110, 380-395, 697-731,
838-888, Likelihood/SourceMap.h:166-177).

An image is represented by where the source was when it was drawn and where it was when the PSF was
averaged.  All sources are point sources, the maps are computed (`computePointSources`, no file, no
`use_single_psf`), and no parameter is freed or fixed afterwards (see Verif.Binned for that).
-/
namespace Verif.Readd

variable {ν σ : Type} [DecidableEq ν] [DecidableEq σ]

/-- A `SourceMap`: `m_model` (`none`: cleared, `m_dataCleared`), where `m_meanPsf` was computed, the
address `m_src`, `m_model_is_local`; Likelihood/SourceMap.h:440-520. -/
structure SMap (σ : Type) where
  img : Option (σ × σ)
  psf : σ
  src : Nat
  loc : Bool

/-- `m_sources`, `m_srcMaps`, `m_fixedSources`, what `m_fixedModelCounts` and `m_fixed_counts_spec`
are the sums of. -/
structure St (ν σ : Type) where
  srcs : ν → Option (Src σ)
  maps : ν → Option (SMap σ)
  fixedNames : List ν
  counts : σ × σ → Int
  npreds : σ × σ → Int

/-- A new likelihood. -/
def St.new : St ν σ := ⟨fun _ => none, fun _ => none, [], fun _ => 0, fun _ => 0⟩

/-- `m_srcMaps[n] = m`. -/
def St.putMap (st : St ν σ) (n : ν) (m : Option (SMap σ)) : St ν σ :=
  { st with maps := fun k => if k = n then m else st.maps k }

/-- `m_sources[n] = s`. -/
def St.putSrc (st : St ν σ) (n : ν) (s : Option (Src σ)) : St ν σ :=
  { st with srcs := fun k => if k = n then s else st.srcs k }

/-- An image is added to a sum. -/
def bump (f : σ × σ → Int) (i : σ × σ) (k : Int) : σ × σ → Int := fun x => if x = i then f x + k else f x

/-- `SourceMap(src, ...)`, SourceMap.cxx:76-110. -/
def made (s : Src σ) : SMap σ := ⟨some (s.shape, s.shape), s.shape, s.id, true⟩

/-- `make_model` of a map that exists, SourceMap.cxx:697-731: the mean PSF is not computed again. -/
def remake (m : SMap σ) (s : Src σ) : SMap σ := { m with img := some (s.shape, m.psf), loc := true }

/-- `setSource`, SourceMap.cxx:380-395, with `resetSourceData` and `getSourceData`, 866-888.  The
image is not touched when the source is another one. -/
def setSource (c : Cfg) (m : SMap σ) (s : Src σ) : SMap σ :=
  if m.src = s.id then
    if c.saveAll = true ∧ m.img.isNone = true then remake m s else m
  else { m with src := s.id, loc := false }

/-- `reloadIfCleared`, SourceMap.cxx:849-864, and the image then. -/
def reload (m : SMap σ) (s : Src σ) : SMap σ × (σ × σ) :=
  match m.img with
  | some i => (m, i)
  | none => (remake m s, (s.shape, m.psf))

/-- `if (!save_model()) clear_model(delete_local_fixed)`, SourceMap.h:166-177,
BinnedLikelihood.cxx:901-904, 1050-1054.  `m_save_model` is `save_all_srcmaps`. -/
def clear (c : Cfg) (m : SMap σ) : SMap σ :=
  if c.saveAll = false ∧ (c.dropLocal = true ∨ m.loc = false) then { m with img := none, loc := false } else m

/-- `getSourceMap`, SourceMapCache.cxx:112-148. -/
def getMap (c : Cfg) (st : St ν σ) (n : ν) (s : Src σ) : SMap σ :=
  match st.maps n with
  | some m => setSource c m s
  | none => made s

/-- `addFixedSource`, BinnedLikelihood.cxx:864-905: `addSourceCounts` clears the map, so that it is
made again for `addFixedNpreds`. -/
def addFixed (c : Cfg) (st : St ν σ) (n : ν) (s : Src σ) : Res (St ν σ) :=
  if n ∈ st.fixedNames then .throws
  else
    let a := reload (getMap c st n s) s
    let b := reload (clear c a.1) s
    .ok { st.putMap n (some (clear c b.1)) with
      fixedNames := st.fixedNames ++ [n], counts := bump st.counts a.2 1, npreds := bump st.npreds b.2 1 }

/-- The object that goes into the model, SourceModel.cxx:197-206. -/
def stored (s : Src σ) (clone : Option Nat) : Src σ :=
  match clone with
  | none => s
  | some a => { s with id := a }

/-- `addSource`, BinnedLikelihood.cxx:323-339.  The map is asked for with the source that was
given, not with the copy, line 332; a map given (`mk`) is ignored for a fixed source. -/
def addSource (c : Cfg) (st : St ν σ) (n : ν) (s : Src σ) (clone : Option Nat) (load mk : Bool) : Res (St ν σ) :=
  if (st.srcs n).isSome then .throws
  else
    let st := st.putSrc n (some (stored s clone))
    if c.single = true ∧ s.fixed = true then addFixed c st n (stored s clone)
    else if load then
      if mk then .ok ((st.putMap n none).putMap n (some (made s)))
      else .ok (st.putMap n (some (getMap c st n s)))
    else .ok st

/-- `deleteSource`, BinnedLikelihood.cxx:352-372, SourceModel.cxx:208-218.  The counts are
subtracted with the map there is, line 360, which `addSourceCounts` makes again if it was cleared
and clears, 1041-1054; its predicted numbers stay, line 361.  The map stays in the cache. -/
def deleteSource (c : Cfg) (st : St ν σ) (n : ν) : Res (St ν σ) :=
  match st.srcs n with
  | none => .throws
  | some s =>
    if n ∈ st.fixedNames then
      let a := reload (getMap c st n s) s
      .ok { (st.putMap n (some (clear c a.1))).putSrc n none with
        fixedNames := st.fixedNames.erase n, counts := bump st.counts a.2 (-1), npreds := bump st.npreds a.2 (-1) }
    else .ok (st.putSrc n none)

/-- `FitScanModelWrapper_Binned::removeSource`, FitScanner.cxx:549-558 (and for each part of a sum,
851-864): the map of a source with fixed spectrum is not erased. -/
def removeSource (c : Cfg) (st : St ν σ) (n : ν) : Res (St ν σ) :=
  match st.srcs n with
  | none => .ok st
  | some s => do
    let st ← deleteSource c st n
    if s.fixed then .ok st else .ok (st.putMap n none)

/-- `addSourceCounts` for a vector of the caller, BinnedLikelihood.cxx:1021-1055: a source that is
not there adds nothing. -/
def use (c : Cfg) (st : St ν σ) (n : ν) : St ν σ × Option (σ × σ) :=
  match st.srcs n with
  | none => (st, none)
  | some s =>
    let a := reload (getMap c st n s) s
    (st.putMap n (some (if n ∈ st.fixedNames then clear c a.1 else a.1)), some a.2)

/-- `computeModelMap(src)`, SourceMapCache.cxx:336-348: a map that was not there is erased. -/
def compute (c : Cfg) (st : St ν σ) (n : ν) : Res (St ν σ × (σ × σ)) :=
  match st.srcs n with
  | none => .throws
  | some s =>
    let a := reload (getMap c st n s) s
    .ok (if (st.maps n).isSome then st.putMap n (some a.1) else (st.putMap n (some a.1)).putMap n none, a.2)

/-- One operation. -/
def step (c : Cfg) (st : St ν σ) : Op ν σ → Res (St ν σ)
  | .add n s clone load => addSource c st n s clone load false
  | .addNew n s clone => addSource c st n s clone true true
  | .delete n => deleteSource c st n
  | .remove n => removeSource c st n
  | .erase n => .ok (st.putMap n none)
  | .move n d =>
    match st.srcs n with
    | none => .ub
    | some s => .ok (st.putSrc n (some { s with shape := d }))
  | .use n => .ok (use c st n).1
  | .compute n => do
    let r ← compute c st n
    .ok r.1

/-- A history. -/
def run (c : Cfg) (st : St ν σ) : List (Op ν σ) → Res (St ν σ)
  | [] => .ok st
  | o :: l => do
    let st ← step c st o
    run c st l

/-- The image whose counts a source is said to have. -/
def image (c : Cfg) (st : St ν σ) (n : ν) : Option (σ × σ) := (use c st n).2

end Verif.Readd
