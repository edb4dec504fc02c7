import Verif.DiffRsp.Types
import Verif.Basic
/-
Model of the tool `gtdiffrsp` (`src/diffuseResponses/diffuseResponses.cxx`) and of the functions of
`src/DiffRespNames.cxx`, `src/EventContainer.cxx`, `src/Event.cxx` with which responses to diffuse
components get into event files and out of them.

Simplifications: the files have `NDIFRSP` and all keywords `DIFRSP<i>` below it (a file without
`NDIFRSP` is converted before, diffuseResponses.cxx:231-283), and the same `PASS_VER`; energy dispersion
is off (EventContainer.cxx:160-162 throws otherwise); columns hold reals.
-/
namespace Verif.DiffRsp
open Verif

/-! ### Names -/

/-- `strip_front_back`, diffuseResponses.cxx:51-58, and `strip_evtype_qualifier`, Event.cxx:36-43: the
part before the first "::". -/
def strip : Name → Name
  | [] => []
  | [a] => [a]
  | a :: b :: r => if a = ':' ∧ b = ':' then [] else a :: strip (b :: r)

/-- `diffuseSrcName`, diffuseResponses.cxx:359-367 and Event.cxx:455-466. -/
def compName (irf src : Name) : Name := (strip irf ++ "__".toList ++ src).map Char.toLower

/-- `alt_diffuseSrcName`, diffuseResponses.cxx:59-65. -/
def altName (irf src : Name) : Name := (strip irf ++ "::".toList ++ src).map Char.toLower

/-- `DiffRespNames::addColumn`, DiffRespNames.cxx:46-50. -/
def addColumn (ns : List Name) (n : Name) : List Name := if n ∈ ns then ns else ns ++ [n]

/-- `DiffRespNames::key`, DiffRespNames.cxx:52-63: the number in the name of the column. -/
def key (ns : List Name) (n : Name) : Res Nat := if n ∈ ns then .ok (ns.idxOf n) else .throws

/-! ### Reading events -/

/-- `m_respDiffuseSrcs` of an event, Event.h:190-191. -/
abbrev Resp := Name → Option (List ℝ)

/-- `Event::setDiffuseResponse`, Event.h:116-119. -/
def setResp (m : Resp) (n : Name) (v : ℝ) : Resp := fun k => if k = n then some [v] else m k

/-- `get_diffuse_names`, EventContainer.cxx:286-299. -/
def getNames (f : EvFile) : List Name := f.keys.foldl addColumn []

/-- The responses of one event, EventContainer.cxx:153-186: for the names `todo`, of all the names
`ns`. -/
def readEvent (ns : List Name) (f : EvFile) (j : Nat) : List Name → Resp → Res Resp
  | [], m => .ok m
  | n :: todo, m => do
    let i ← key ns n
    match f.cols i with
    | none => .throws
    | some c => readEvent ns f j todo (setResp m n (c j))

/-- `EventContainer::getEvents` without cuts, EventContainer.cxx:48-200. -/
def readEvents (f : EvFile) : Res (List Resp) :=
  (List.range f.nrow).mapM fun j => readEvent (getNames f) f j (getNames f) fun _ => none

/-- `Event::diffuseResponse`, Event.cxx:104-139. -/
def response (irf : Name) (m : Resp) (src : Name) : Res ℝ :=
  match m (compName irf src) with
  | none => .throws
  | some [] => .ub
  | some (v :: _) => .ok v

/-! ### Computing responses -/

/-- `m_respDiffuseSrcs[name].push_back(value)`, Event.cxx:190, 223. -/
def push (m : Resp) (n : Name) (v : ℝ) : Resp := fun k =>
  if k = n then some ((m n).getD [] ++ [v]) else m k

/-- `Event::getNewDiffuseSrcs`, Event.cxx:438-447. -/
def newSrcs (irf : Name) (m : Resp) (srcs : List Src) : List Src :=
  srcs.filter fun s => (m (compName irf s.name)).isNone

/-- `Event::computeResponseGQ`, Event.cxx:156-228: the integral itself is the given response of the
source. -/
def compute (irf : Name) (srcs : List Src) (dummy : Bool) (id : Nat) (m : Resp) : Resp :=
  (newSrcs irf m srcs).foldl
    (fun m s => push m (compName irf s.name) (if dummy then 0 else s.resp id)) m

/-- The class asked for, diffuseResponses.cxx:396-413: `1 << evtclass` for an `int` of 32 bits; the
test before it is `evtclass > 32`. -/
def target (c : Cfg) : Res (Option Nat) :=
  if c.old then .ok (some c.clsmin)
  else match c.cls with
    | none => .ok none
    | some e => if 32 < e then .throws else if e = 32 then .ub else .ok (some (1 <<< e))

/-- `useDummyValue`, diffuseResponses.cxx:426-435. -/
def isDummy (c : Cfg) (t : Option Nat) (cls : Nat) : Bool :=
  match t with
  | none => false
  | some t => if c.old then decide (cls < t) else decide (cls &&& t = 0)

/-- The loop over the events, diffuseResponses.cxx:414-439. -/
def computeAll (c : Cfg) (t : Option Nat) (f : EvFile) (ms : List Resp) : List Resp :=
  ms.mapIdx fun j m => compute c.irf c.srcs (isDummy c t (f.ev j).cls) (f.ev j).id m

/-! ### Writing responses -/

/-- `appendField`: an existing column stays (the exception is caught), diffuseResponses.cxx:470,
482-485; a new one is filled with zeros. -/
def append (cols : Cols) (i : Nat) : Cols := fun k =>
  if k = i then some ((cols i).getD fun _ => 0) else cols k

/-- The names of the sources, diffuseResponses.cxx:457-486. -/
def prepare (irf : Name) : List Src → List Name → Cols → Res (List Name × Cols)
  | [], ns, cols => .ok (ns, cols)
  | x :: xs, ns, cols => do
    let i ← key (addColumn ns (compName irf x.name)) (compName irf x.name)
    prepare irf xs (addColumn ns (compName irf x.name)) (append cols i)

/-- `row[fieldName].set`, diffuseResponses.cxx:499. -/
def setCell (cols : Cols) (i j : Nat) (v : ℝ) : Res Cols :=
  match cols i with
  | none => .throws
  | some c => .ok fun k => if k = i then some (fun r => if r = j then v else c r) else cols k

/-- One row, diffuseResponses.cxx:490-501. -/
def writeRow (irf : Name) (ns : List Name) (j : Nat) (m : Resp) : List Src → Cols → Res Cols
  | [], cols => .ok cols
  | x :: xs, cols => do
    let i ← key ns (compName irf x.name)
    let v ← response irf m x.name
    let cols ← setCell cols i j v
    writeRow irf ns j m xs cols

/-- The members of the tool that outlive a file: `m_columnNames`, `m_ndifrsp`,
diffuseResponses.cxx:115-116. -/
structure Tool where
  names : List Name
  ndif : Nat

/-- `readExistingDiffRespKeys`, diffuseResponses.cxx:555-568. -/
def existing (ns : List Name) (keys : List Name) : List Name :=
  keys.foldl (fun ns n => if n ≠ noName then addColumn ns n else ns) ns

/-- `writeEventResponses`, diffuseResponses.cxx:442-511.  The first keywords are set to the names, and
`NDIFRSP` to their number if this exceeds `m_ndifrsp`. -/
def write (c : Cfg) (t : Tool) (f : EvFile) (ms : List Resp) : Res (Tool × EvFile) :=
  if c.srcs = [] then .ok (t, f)
  else if f.nrow ≠ ms.length then .throws
  else do
    let (ns, cols) ← prepare c.irf c.srcs (existing t.names f.keys) f.cols
    let cols ← loop (fun j cols => do
      let m ← vget ms j
      writeRow c.irf ns j m c.srcs cols) 0 f.nrow cols
    let n := if t.ndif < ns.length then ns.length else f.keys.length
    .ok ({ t with names := ns }, { f with keys := (ns ++ f.keys.drop ns.length).take n, cols := cols })

/-! ### The tool -/

/-- `haveDiffuseColumns`, diffuseResponses.cxx:314-335. -/
def haveColumns (c : Cfg) (f : EvFile) : Bool :=
  c.srcs.all fun x => decide (compName c.irf x.name ∈ f.keys) || decide (altName c.irf x.name ∈ f.keys)

/-- One file, diffuseResponses.cxx:182-203; `m_ndifrsp` is set within `haveDiffuseColumns`
(diffuseResponses.cxx:344), which is not called with `clobber`. -/
def process (c : Cfg) (t : Tool) (f : EvFile) : Res (Tool × EvFile) :=
  let t := if c.clobber then t else { t with ndif := f.keys.length }
  if c.clobber = true ∨ haveColumns c f = false then do
    let ms ← readEvents f
    let tgt ← target c
    write c t f (computeAll c tgt f ms)
  else .ok (t, f)

/-- The loop over the files, diffuseResponses.cxx:181-203. -/
def files (c : Cfg) : Tool → List EvFile → Res (List EvFile)
  | _, [] => .ok []
  | t, f :: fs => do
    let (t, f) ← process c t f
    let fs ← files c t fs
    .ok (f :: fs)

/-- `diffuseResponses::run`, diffuseResponses.cxx:165-204. -/
def run (c : Cfg) (fs : List EvFile) : Res (List EvFile) := files c ⟨[], 0⟩ fs

/-- What an analysis gets for a source and an event of the file: `getEvents` and then
`DiffuseSource::fluxDensity`, DiffuseSource.cxx:133-157. -/
def reads (irf : Name) (f : EvFile) (src : Name) (j : Nat) : Res ℝ := do
  let ms ← readEvents f
  let m ← vget ms j
  response irf m src

/-- Several runs, each on this one file. -/
def runs : List Cfg → EvFile → Res EvFile
  | [], f => .ok f
  | c :: cs, f => do
    let fs ← run c [f]
    let f ← vget fs 0
    runs cs f

end Verif.DiffRsp
