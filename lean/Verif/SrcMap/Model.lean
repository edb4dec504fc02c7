import Verif.Basic
import Verif.Vec
import Verif.SrcMap.Types
/-
The life of one source map: it is computed or read, dropped from memory, read back,
replaced by an image of the user, weighted, written to a file.

Simplifications.  All images have the energies of one configuration, so that the number
of planes `ne` does not change.  The weighted sums are those without extra energy planes
(`FitUtils::get_edisp_range` is the subject of `Verif.Edisp`); here they are the products
of the weights with the pixels of their own plane.  The sparse representation is stood
for by the vector it represents (`Verif.Sparse` is about the representation); an empty
list is a sparse vector of size zero.  The kind of the map (`m_mapType`) is the same
in memory and in the file.  The spectral side is in `Verif.SrcMap.Spectrum`.
-/
namespace Verif.SrcMap
open Verif.Vec

/-- What does not change: the size, the kind of the map, the image
`PSFUtils::makeModelMap` computes for each source, the values of the phased exposure map
at the pixels and energies (`none`: no such map). -/
structure Env where
  npix : Nat
  ne : Nat
  sparse : Bool
  own : Nat → Image
  phase : Option Image

/-- The fields of `SourceMap` (SourceMap.h:440-520), and the extensions named after the
source in the files of the world. -/
structure St where
  /-- `m_src`, an address -/
  src : Nat
  /-- `m_filename`; `none` is the empty name -/
  fname : Option Nat
  /-- `m_model` -/
  model : Image
  /-- `m_sparseModel` -/
  sp : Image
  /-- `m_model_is_local` -/
  loc : Bool
  /-- `m_save_model` -/
  save : Bool
  /-- `m_dataCleared` -/
  cleared : Bool
  /-- `m_loaded` -/
  loaded : Bool
  /-- `m_npreds` -/
  npreds : List ℝ
  /-- `m_weighted_npreds` -/
  wnpreds : List ℝ
  /-- `m_weights` -/
  weights : Option Image
  /-- the image under the name of the source in each file -/
  files : Nat → Option Image

/-- `applyPhasedExposureMap`, SourceMap.cxx:344-362: every pixel of `m_model` is
multiplied; it is indexed without a check. -/
def phaseFull (e : Env) (m : Image) : Res Image :=
  match e.phase with
  | none => .ok m
  | some f => if m.length < f.length then .ub else .ok (List.zipWith (· * ·) m f ++ m.drop f.length)

/-- `applyPhasedExposureMap_sparse`, SourceMap.cxx:364-378: the entries that are there. -/
def phaseSparse (e : Env) (m : Image) : Image :=
  match e.phase with
  | none => m
  | some f => List.zipWith (· * ·) m f

/-- `applyPhasedExposureMap`, SourceMap.cxx:344-350. -/
def applyPhase (e : Env) (st : St) : Res St :=
  if e.sparse then .ok { st with sp := phaseSparse e st.sp }
  else do
    let m ← phaseFull e st.model
    .ok { st with model := m }

/-- The sums over the planes, SourceMap.cxx:246-265. -/
noncomputable def planeSums (e : Env) (m : Image) : List ℝ :=
  (List.range e.ne).map fun k => ((List.range e.npix).map fun j => val m (k * e.npix + j)).sum

/-- The weighted sums, SourceMap.cxx:266-280. -/
noncomputable def weightSums (e : Env) (w : Option Image) (m : Image) : List ℝ :=
  (List.range e.ne).map fun k => ((List.range e.npix).map fun j =>
    (match w with
      | none => 1
      | some w => val w (k * e.npix + j)) * val m (k * e.npix + j)).sum

/-- `computeNpredArray` when the sums can be made, SourceMap.cxx:226-282 and, for sparse
maps, 282-342.  With an empty full map the function calls `model(true)`, which calls it
again: without end when the image that was read is empty (`.ub`). -/
noncomputable def counts (e : Env) (st : St) : Res St :=
  if e.sparse = true ∧ st.model = [] then
    .ok { st with npreds := planeSums e st.sp, wnpreds := weightSums e st.weights st.sp }
  else if st.model.length < e.ne * e.npix ∨ st.model = [] then .ub
  else .ok { st with npreds := planeSums e st.model, wnpreds := weightSums e st.weights st.model }

/-- `readModel`, SourceMap.cxx:596-637: without an image of that name in the file an
exception is thrown. -/
noncomputable def readModel (e : Env) (st : St) (f : Nat) : Res St :=
  match st.files f with
  | none => .throws
  | some img => do
    let st ← applyPhase e { st with
      fname := some f
      loc := false
      model := if e.sparse then [] else img
      sp := if e.sparse then img else st.sp }
    let st ← counts e st
    .ok { st with loaded := true }

/-- `make_model`, SourceMap.cxx:697-739, with `sparsify_model` :193-201. -/
noncomputable def makeModel (e : Env) (st : St) : Res St := do
  let st ← applyPhase e { st with
    loc := true
    model := if e.sparse then [] else e.own st.src
    sp := if e.sparse then e.own st.src else st.sp }
  counts e st

/-- The second half of `model`, SourceMap.cxx:449-457. -/
noncomputable def remake (e : Env) (st : St) : Res St :=
  match st.fname with
  | some f => if (st.files f).isSome then readModel e st f else makeModel e st
  | none => makeModel e st

/-- `model(force)`, SourceMap.cxx:448-460. -/
noncomputable def model (e : Env) (st : St) (force : Bool) : Res St :=
  if st.model = [] ∨ force = true then remake e st else .ok st

/-- `computeNpredArray`, SourceMap.cxx:212-224: a full map that was dropped is made again. -/
noncomputable def computeNpreds (e : Env) (st : St) : Res St :=
  if e.sparse = false ∧ st.model = [] then remake e st else counts e st

/-- `npreds(force)`, SourceMap.cxx:486-491. -/
noncomputable def npreds (e : Env) (st : St) (force : Bool) : Res St :=
  if st.npreds = [] ∨ force = true then computeNpreds e st else .ok st

/-- `clear_model(force)`, SourceMap.h:166-177. -/
def clear (st : St) (force : Bool) : St :=
  if force = true ∨ (st.save = false ∧ st.loc = false) then
    { st with model := [], sp := [], loc := false, cleared := true }
  else st

/-- The choice between reading and making in `reloadIfCleared` and `getSourceData`,
SourceMap.cxx:857-861, 879-887. -/
noncomputable def readOrMake (e : Env) (st : St) : Res St :=
  match st.fname with
  | some f => readModel e st f
  | none => makeModel e st

/-- `reloadIfCleared`, SourceMap.cxx:849-864. -/
noncomputable def reload (e : Env) (st : St) : Res St :=
  if st.cleared then do
    let st ← readOrMake e st
    .ok { st with cleared := false }
  else .ok st

/-- `setSaveModel`, SourceMap.h:324-327. -/
noncomputable def setSave (e : Env) (st : St) (b : Bool) : Res St :=
  if b then reload e { st with save := true } else .ok { st with save := false }

/-- `setImage`, SourceMap.cxx:552-560. -/
noncomputable def setImage (e : Env) (st : St) (img : Image) : Res St :=
  if img.length ≠ st.model.length ∧ st.model ≠ [] then .throws
  else do
    let st ← applyPhase e { st with model := img, loc := true }
    computeNpreds e st

/-- `setWeights`, SourceMap.cxx:562-565. -/
noncomputable def setWeights (e : Env) (st : St) (w : Option Image) : Res St :=
  computeNpreds e { st with weights := w }

/-- `resetSourceData`, SourceMap.cxx:866-875 (the energies do not change here). -/
def resetData (st : St) : St := { st with npreds := [], wnpreds := [], loc := false }

/-- `getSourceData`, SourceMap.cxx:877-888. -/
noncomputable def getData (e : Env) (st : St) : Res St :=
  readOrMake e { st with loaded := true }

/-- `setSource`, SourceMap.cxx:380-395. -/
noncomputable def setSource (e : Env) (st : St) (s : Nat) : Res St :=
  if st.src = s then
    if st.loaded = false ∨ (st.save = true ∧ st.model = [] ∧ st.sp = []) then do
      let st ← getData e st
      match st.fname with
      | none => .ok st
      | some _ => .ok (resetData st)
    else .ok st
  else .ok (resetData { st with src := s })

/-- The image `replaceSourceMap` and `appendSourceMap` write, SourceMapCache.cxx:487-503. -/
def written (e : Env) (st : St) : Image := if e.sparse then st.sp else st.model

/-- `replaceSourceMap` / `appendSourceMap`, SourceMapCache.cxx:477-530: the map is made if
it is not in memory, the file is declared to hold it, then it is written.  `good = false`:
writing fails with an exception, which leaves the file as it was; the caller goes on. -/
noncomputable def writeMap (e : Env) (st : St) (f : Nat) (good : Bool) : Res St := do
  let st ← setSource e st st.src
  let st ← (if st.model = [] ∧ st.sp = [] then model e st false else .ok st)
  let st := { st with fname := some f, loc := false }
  .ok (if good then { st with files := fun g => if g = f then some (written e st) else st.files g }
    else st)

/-- `SourceMapCache::saveSourceMaps` for this source, SourceMapCache.cxx:258-310. -/
noncomputable def saveMap (e : Env) (st : St) (f : Nat) (replace good : Bool) : Res St :=
  if (st.files f).isSome then
    if replace then writeMap e st f good else .ok st
  else writeMap e st f good

/-- One call. -/
noncomputable def step (e : Env) (st : St) : Op → Res St
  | .model b => model e st b
  | .npreds b => npreds e st b
  | .clear b => .ok (clear st b)
  | .reload => reload e st
  | .setSave b => setSave e st b
  | .setImage i => setImage e st i
  | .setWeights w => setWeights e st w
  | .setSource s => setSource e st s
  | .saveMap f r g => saveMap e st f r g

/-- A sequence of calls; it ends at the first exception. -/
noncomputable def run (e : Env) (st : St) : List Op → Res St
  | [] => .ok st
  | o :: os => do
    let st ← step e st o
    run e st os

/-- The members before the body of a constructor runs, SourceMap.cxx:76-99, 112-135 and
the initialisers of SourceMap.h:514-520. -/
def blank (files : Nat → Option Image) (s : Nat) (save : Bool) (w : Option Image) : St :=
  { src := s, fname := none, model := [], sp := [], loc := true, save := save,
    cleared := false, loaded := false, npreds := [], wnpreds := [], weights := w,
    files := files }

/-- `SourceMap(src, ...)`, SourceMap.cxx:76-110. -/
noncomputable def fromSource (e : Env) (files : Nat → Option Image) (s : Nat) (save : Bool)
    (w : Option Image) : Res St := do
  let st ← makeModel e (blank files s save w)
  .ok { st with loaded := true }

/-- `SourceMap(file, src, ...)`, SourceMap.cxx:112-143. -/
noncomputable def fromFile (e : Env) (files : Nat → Option Image) (f s : Nat) (save : Bool)
    (w : Option Image) : Res St :=
  readModel e (blank files s save w) f

/-- `operator[]`, SourceMap.cxx:188-190: the sparse vector, or the full one. -/
def pixel (e : Env) (st : St) (i : Nat) : Res ℝ :=
  if e.sparse then .ok (val st.sp i) else vget st.model i

end Verif.SrcMap
