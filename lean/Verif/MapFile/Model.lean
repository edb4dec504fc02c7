import Verif.Basic
import Verif.MapFile.Types
/-
The source maps of a binned analysis in memory and in files: `SourceMapCache` and the functions
of `BinnedLikelihood` that save and load source maps.

Simplifications.  An image is an abstract value: its size, its representation and the phased
exposure are in `Verif.SrcMap` and `Verif.Files`.  The sources themselves are not exchanged.  The
member `m_srcMapsFile` of `BinnedLikelihood` and that of its `SourceMapCache` are given the same
values and are one field here.  Writing an extension does not fail, and, as `writeEnergies`
(CountsMapBase.cxx:353-356) relies on, appending to a file that does not exist creates it.
-/
namespace Verif.MapFile
open Verif

variable {φ ν ι π : Type} [DecidableEq φ] [DecidableEq ν]

/-- The fields of a `SourceMap` that matter here: `m_model` (`none`: empty), `m_filename` (`none`:
empty), `m_model_is_local`, SourceMap.h:440-520. -/
structure Entry (φ ι : Type) where
  img : Option ι
  fname : Option φ
  loc : Bool

/-- `m_srcMapsFile` (`none`: the empty name), the files of the world, `m_srcMaps` (the inner `none`
is a null pointer), the parameters of the fixed sources. -/
structure St (φ ν ι π : Type) where
  cur : Option φ
  files : φ → Option (File ν ι π)
  maps : ν → Option (Option (Entry φ ι))
  par : π

/-- `m_srcMaps[n] = p`. -/
def St.put (st : St φ ν ι π) (n : ν) (p : Option (Entry φ ι)) : St φ ν ι π :=
  { st with maps := fun m => if m = n then some p else st.maps m }

/-- A file is given new contents. -/
def St.write (st : St φ ν ι π) (f : φ) (x : File ν ι π) : St φ ν ι π :=
  { st with files := fun g => if g = f then some x else st.files g }

/-- The image under the name of a source, if `FileUtils::fileHasExtension`, FileUtils.cxx:48-56. -/
def St.stored (st : St φ ν ι π) (f : Option φ) (n : ν) : Option ι :=
  match f with
  | none => none
  | some f =>
    match st.files f with
    | none => none
    | some x => x.map n

/-- A file that is created by appending to it. -/
def blank : File ν ι π := ⟨false, none, none, [], fun _ => none⟩

/-- `writeOutput` and `writeEmptyOutput` create the file anew, CountsMap.cxx:458-473,
CountsMapBase.cxx:338-348. -/
def fresh (counts : Bool) : File ν ι π := { (blank : File ν ι π) with counts := counts }

/-- The contents that are appended to. -/
def St.content (st : St φ ν ι π) (f : φ) : File ν ι π :=
  match st.files f with
  | none => blank
  | some x => x

/-- `SourceMap(src, ...)`, SourceMap.cxx:76-110. -/
def made (e : Env φ ν ι π) (n : ν) : Entry φ ι := ⟨some (e.own n), none, true⟩

/-- `model()` of a map without image, SourceMap.cxx:448-460: it is read if the file has the
extension and computed otherwise. -/
def remake (e : Env φ ν ι π) (st : St φ ν ι π) (n : ν) (x : Entry φ ι) : Entry φ ι :=
  match st.stored x.fname n with
  | some i => { x with img := some i, loc := false }
  | none => { x with img := some (e.own n), loc := true }

/-- `model()`, SourceMap.cxx:448-460. -/
def model (e : Env φ ν ι π) (st : St φ ν ι π) (n : ν) (x : Entry φ ι) : Entry φ ι :=
  match x.img with
  | some _ => x
  | none => remake e st n x

/-- `getSourceData`, SourceMap.cxx:877-888: a map with a file is read, which throws if the extension
is not there. -/
def getData (e : Env φ ν ι π) (st : St φ ν ι π) (n : ν) (x : Entry φ ι) : Res (Entry φ ι) :=
  match x.fname with
  | none => .ok { x with img := some (e.own n), loc := true }
  | some f =>
    match st.stored (some f) n with
    | some i => .ok { x with img := some i, loc := false }
    | none => .throws

/-- `setSource` with the source the map has, SourceMap.cxx:380-395. -/
def setSource (e : Env φ ν ι π) (st : St φ ν ι π) (n : ν) (x : Entry φ ι) : Res (Entry φ ι) :=
  if e.saveAll = true ∧ x.img.isNone = true then getData e st n x else .ok x

/-- The map that is not in memory, SourceMapCache.cxx:130-150: read from the file, computed, or, for
a point source with `computePointSources` off, a null pointer. -/
def newMap (e : Env φ ν ι π) (st : St φ ν ι π) (n : ν) : Option (Entry φ ι) :=
  match (if e.loadExisting then st.stored st.cur n else none) with
  | some i => some ⟨some i, st.cur, false⟩
  | none => if e.kind n = .point ∧ e.computePoint = false then none else some (made e n)

/-- `getSourceMap`, SourceMapCache.cxx:115-151.  A null pointer that is already in the map is
dereferenced, line 125. -/
def getMap (e : Env φ ν ι π) (st : St φ ν ι π) (n : ν) : Res (St φ ν ι π × Option (Entry φ ι)) :=
  match st.maps n with
  | some (some x) => do
    let x ← setSource e st n x
    .ok (st.put n (some x), some x)
  | some none => .ub
  | none => .ok (st.put n (newMap e st n), newMap e st n)

/-- `srcMap->`. -/
def deref : Option (Entry φ ι) → Res (Entry φ ι)
  | none => .ub
  | some x => .ok x

/-- The image of a source as the rest of the program gets it: `getSourceMap` and `model()`. -/
def use (e : Env φ ν ι π) (st : St φ ν ι π) (n : ν) : Res (St φ ν ι π × Entry φ ι) := do
  let r ← getMap e st n
  let x ← deref r.2
  .ok (r.1.put n (some (model e r.1 n x)), model e r.1 n x)

/-- `setSourceMapImage`, SourceMapCache.cxx:249-257, with `setImage`, SourceMap.cxx:552-560. -/
def setImage (e : Env φ ν ι π) (st : St φ ν ι π) (n : ν) (i : ι) : Res (St φ ν ι π) :=
  match st.maps n with
  | some p => do
    let x ← deref p
    .ok (st.put n (some { x with img := some i, loc := true }))
  | none => do
    let r ← getMap e st n
    let x ← deref r.2
    .ok (r.1.put n (some { x with img := some i, loc := true }))

/-- `loadSourceMap`, SourceMapCache.cxx:221-246. -/
def load (e : Env φ ν ι π) (st : St φ ν ι π) (n : ν) (recreate : Bool) : Res (St φ ν ι π) :=
  if e.kind n ≠ .diffuse ∧ e.computePoint = false then .ok st
  else if recreate then .ok (st.put n (some (made e n)))
  else do
    let r ← getMap e st n
    .ok r.1

/-- `replaceSourceMap` and `appendSourceMap`, SourceMapCache.cxx:478-530. -/
def writeMap (e : Env φ ν ι π) (st : St φ ν ι π) (n : ν) (f : φ) : Res (St φ ν ι π) := do
  let r ← use e st n
  let x : Entry φ ι := { r.2 with fname := some f, loc := false }
  .ok ((r.1.put n (some x)).write f
    { r.1.content f with map := fun m => if m = n then x.img else (r.1.content f).map m })

/-- One pass of `loadSourceMaps`, SourceMapCache.cxx:192-211.  Both branches of lines 201-209 write
the map.  A file without name cannot be written. -/
def loadOne (e : Env φ ν ι π) (recreate saveMaps : Bool) (st : St φ ν ι π) (n : ν) : Res (St φ ν ι π) := do
  let st ← (if (st.maps n).isNone = true ∨ recreate = true then load e st n recreate else .ok st)
  if saveMaps then
    match st.cur with
    | none => .throws
    | some f => writeMap e st n f
  else .ok st

/-- `loadSourceMaps`, SourceMapCache.cxx:185-217, BinnedLikelihood.cxx:427-438. -/
def loadAll (e : Env φ ν ι π) (recreate saveMaps : Bool) : List ν → St φ ν ι π → Res (St φ ν ι π)
  | [], st => .ok st
  | n :: l, st => do
    let st ← loadOne e recreate saveMaps st n
    loadAll e recreate saveMaps l st

/-- The map of one source, SourceMapCache.cxx:286-301. -/
def saveOne (e : Env φ ν ι π) (replace : Bool) (st : St φ ν ι π) (n : ν) (out : φ) : Res (St φ ν ι π) :=
  if (st.maps n).isSome then
    if (st.stored (some out) n).isSome then
      if replace then writeMap e st n out else .ok st
    else writeMap e st n out
  else .ok st

/-- The number and the name of the output file, SourceMapCache.cxx:276-285. -/
def outFile (e : Env φ ν ι π) (f : φ) (many : Bool) (i : Nat) (s : Nat × φ) : Nat × φ :=
  if many = true ∧ i % 500 = 0 then
    let k := if 0 < i then s.1 + 1 else s.1
    (k, e.split f k)
  else s

/-- The loop of `saveSourceMaps`, SourceMapCache.cxx:271-304. -/
def saveLoop (e : Env φ ν ι π) (f : φ) (many replace : Bool) :
    List ν → Nat → Nat × φ → St φ ν ι π → Res (St φ ν ι π)
  | [], _, _, st => .ok st
  | n :: l, i, s, st => do
    let st ← saveOne e replace st n (outFile e f many i s).2
    saveLoop e f many replace l (i + 1) (outFile e f many i s) st

/-- `saveWeightsMap`, BinnedCountsCache.cxx:87-103. -/
def saveWeights (e : Env φ ν ι π) (replace : Bool) (st : St φ ν ι π) (f : φ) : St φ ν ι π :=
  match e.weights with
  | none => st
  | some w =>
    if (st.content f).weights.isSome = true ∧ replace = false then st
    else st.write f { st.content f with weights := some w }

/-- What follows the choice of the file in `saveSourceMaps`, BinnedLikelihood.cxx:474-485. -/
def saveRest (e : Env φ ν ι π) (replace : Bool) (st : St φ ν ι π) (f : φ) : Res (St φ ν ι π) := do
  let st ← saveLoop e f (decide (499 < e.srcs.length)) replace e.srcs 0 (0, f) st
  .ok (saveWeights e replace st f)

/-- `saveSourceMaps`, BinnedLikelihood.cxx:459-486.  Whether there is a file is asked of the name in
the argument, the file that is created is `m_srcMapsFile`. -/
def save (e : Env φ ν ι π) (st : St φ ν ι π) (fn : Option φ) (replace counts : Bool) : Res (St φ ν ι π) :=
  match fn with
  | some f =>
    if (st.files f).isSome then saveRest e replace { st with cur := some f } f
    else saveRest e replace ({ st with cur := some f }.write f (fresh counts)) f
  | none =>
    match st.cur with
    | none => .throws
    | some g => saveRest e replace (st.write g (fresh counts)) g

/-- `saveSourceMap_partial`, BinnedLikelihood.cxx:488-497, SourceMapCache.cxx:315-332, 535-590: the
planes are computed, whatever the map in memory is. -/
def savePart (e : Env φ ν ι π) (st : St φ ν ι π) (f : φ) (n : ν) (kmin kmax : Int) (replace : Bool) : St φ ν ι π :=
  if (st.stored (some f) n).isSome = true ∧ replace = false then st
  else st.write f { st.content f with map := fun m => if m = n then some (e.part n kmin kmax) else (st.content f).map m }

/-- The images of the fixed sources, SourceMapCache.cxx:421-429 and SourceMap.cxx:743. -/
def images (e : Env φ ν ι π) : List ν → St φ ν ι π → Res (St φ ν ι π × List (Option ι))
  | [], st => .ok (st, [])
  | n :: l, st => do
    let r ← use e st n
    let s ← images e l r.1
    .ok (s.1, r.2.img :: s.2)

/-- `saveTotalFixedSourceMap`, BinnedLikelihood.cxx:499-531.  The table of the parameters is always
appended, FileUtils.cxx:641. -/
def saveTotal (e : Env φ ν ι π) (st : St φ ν ι π) (replace : Bool) : Res (St φ ν ι π) := do
  let r ← images e (e.srcs.filter e.fixed) st
  let t := e.total st.par (r.2.filterMap id)
  match st.cur with
  | none => .throws
  | some f =>
    .ok (r.1.write f { r.1.content f with
      total := if (r.1.content f).total.isSome = true ∧ replace = false then (r.1.content f).total else some t
      pars := (r.1.content f).pars ++ [st.par] })

/-- `clear_model`, SourceMap.h:166-177. -/
def dropped (e : Env φ ν ι π) (force : Bool) (x : Entry φ ι) : Entry φ ι :=
  if force = true ∨ (e.saveAll = false ∧ x.loc = false) then { x with img := none, loc := false } else x

/-- `clear_model` of the map in memory of a source. -/
def drop (e : Env φ ν ι π) (st : St φ ν ι π) (n : ν) (force : Bool) : Res (St φ ν ι π) :=
  match st.maps n with
  | none => .ok st
  | some none => .ub
  | some (some x) => .ok (st.put n (some (dropped e force x)))

/-- `eraseSourceMap`, SourceMapCache.cxx:157-160. -/
def erase (st : St φ ν ι π) (n : ν) : St φ ν ι π :=
  { st with maps := fun m => if m = n then none else st.maps m }

/-- One call. -/
def step (e : Env φ ν ι π) (st : St φ ν ι π) : Op φ ν ι π → Res (St φ ν ι π)
  | .use n => do
    let r ← use e st n
    .ok r.1
  | .setImage n i => setImage e st n i
  | .load n r => load e st n r
  | .loadAll r s => loadAll e r s e.srcs st
  | .drop n force => drop e st n force
  | .erase n => .ok (erase st n)
  | .save f r c => save e st f r c
  | .savePart f n kmin kmax r => .ok (savePart e st f n kmin kmax r)
  | .setPar p => .ok { st with par := p }
  | .saveTotal r => saveTotal e st r

/-- A sequence of calls; it ends at the first exception. -/
def run (e : Env φ ν ι π) (st : St φ ν ι π) : List (Op φ ν ι π) → Res (St φ ν ι π)
  | [] => .ok st
  | o :: os => do
    let st ← step e st o
    run e st os

/-- The analysis is started on a file, SourceMapCache.cxx:43-53. -/
def start (files : φ → Option (File ν ι π)) (cur : Option φ) (p : π) : St φ ν ι π :=
  ⟨cur, files, fun _ => none, p⟩

/-- The image the program has for a source. -/
def image (e : Env φ ν ι π) (st : St φ ν ι π) (n : ν) : Res (Option ι) := do
  let r ← use e st n
  .ok r.2.img

end Verif.MapFile
