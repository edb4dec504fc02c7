import Mathlib.Analysis.SpecialFunctions.Log.Basic
import Mathlib.Analysis.SpecialFunctions.Trigonometric.Basic
import Mathlib.Algebra.Order.Archimedean.Real.Basic
import Mathlib.Algebra.Order.Floor.Ring
import Verif.Basic
import Verif.StdMap
import Verif.Cuts.Model
import Verif.EvRead.Types
/-
Model of the response functions (src/ResponseFunctions.cxx), of the choice of them in
`AppHelpers::createResponseFuncs` (src/AppHelpers.cxx:430-553) and of the reading of events
(src/EventContainer.cxx:48-200).  Responses to diffuse sources, read in the same loop, are the
subject of Verif.DiffRsp.  Numbers are reals; conversion types are not negative.
-/
namespace Verif.EvRead
open Verif.Cuts (Name Cut)

/-- The members of `ResponseFunctions`: Likelihood/ResponseFunctions.h:146-150.  A pointer that
was deleted stays in the map as a null pointer (ResponseFunctions.h:77-82). -/
structure Resp where
  ptrs : List (Nat × Option Irf)
  useEdisp : Bool
  name : Name

/-- The default constructor: ResponseFunctions.h:36. -/
def empty : Resp := ⟨[], false, []⟩

/-- `respPtr`: ResponseFunctions.cxx:98-106. -/
def respPtr (r : Resp) (t : Nat) : Option Irf := (StdMap.find r.ptrs t).join

/-- One set of response functions: ResponseFunctions.cxx:121-128. -/
def addIrf (lib : Lib) (types : List Nat) (m : List (Nat × Option Irf)) (n : Name) :
    List (Nat × Option Irf) :=
  if types = [] ∨ 0 < types.count (lib.create n).id then
    StdMap.put m (lib.create n).id (some (lib.create n)) else m

/-- `load`: ResponseFunctions.cxx:108-160. -/
def load (lib : Lib) (r : Resp) (name base : Name) (types : List Nat) : Res Resp :=
  match lib.ids name with
  | none => .throws
  | some ns =>
    if (ns.foldl (addIrf lib types) r.ptrs).length = 0 then .throws
    else .ok ⟨ns.foldl (addIrf lib types) r.ptrs, r.useEdisp, if base = [] then name else base⟩

/-- Whether there is a bit mask of a column: `Cuts::bitMaskCut` as used in
AppHelpers.cxx:477,496. -/
def hasMask (col : Name) : Cut → Bool
  | .bits c _ => c = col
  | _ => false

/-- The selections response functions are chosen by: AppHelpers.cxx:471-538. -/
def respCuts (sub : Sub) (p : Pars) : Res (List Cut) :=
  if p.irfs = "CALDB".toList then
    let c := if p.cuts.any (hasMask "EVENT_CLASS".toList) then p.cuts else p.fallback
    if c.any (hasMask "EVENT_TYPE".toList) then .ok c
    else .ok (c ++ (p.evtype.map (fun m => Cut.bits "EVENT_TYPE".toList m)).toList)
  else if ':' ∈ p.irfs then .throws
  else .ok (sub.setIrfs p.irfs ++ (p.evtype.map (fun m => Cut.bits "EVENT_TYPE".toList m)).toList)

/-- `createResponseFuncs`: AppHelpers.cxx:430-553. -/
def createResponseFuncs (lib : Lib) (sub : Sub) (p : Pars) : Res Resp := do
  let c ← respCuts sub p
  if sub.known c then load lib empty (sub.implied c) [] (Cuts.selectedTypes c 3)
  else load lib empty p.irfs [] []

/-- `static_cast<int>(log(x)/log(2))`: EventContainer.cxx:129-130.  The logarithm of 0 is minus
infinity, the conversion of which is undefined. -/
noncomputable def topBit (x : Nat) : Res Nat :=
  if x = 0 then .ub else .ok ⌊Real.log x / Real.log 2⌋.toNat

/-- The type of an event: EventContainer.cxx:125-133.  Without a column of event types the
conversion type is used. -/
noncomputable def rowType (mask : Nat) (hasTypes : Bool) (r : Row) : Res Nat :=
  if hasTypes then topBit (r.type &&& mask) else .ok r.conv

/-- The efficiency: EventContainer.cxx:134-145, with a null pointer dereferenced if there are no
response functions for the type. -/
noncomputable def efficiency (ltfrac : ℝ → ℝ) (r : Row) : Option Irf → Res ℝ
  | none => .ub
  | some irf =>
    match irf.eff with
    | none => .ok 1
    | some f => open Classical in
      if f r.energy (ltfrac r.time) r.time < 0 then .throws
      else .ok (f r.energy (ltfrac r.time) r.time)

/-- One row: EventContainer.cxx:112-150; the constructor of `Event` throws if energy dispersion is
to be used (Event.cxx:81-83). -/
noncomputable def readRow (resp : Resp) (ltfrac : ℝ → ℝ) (mask : Nat) (hasTypes : Bool) (r : Row) :
    Res Ev := do
  let t ← rowType mask hasTypes r
  let e ← efficiency ltfrac r (respPtr resp t)
  if resp.useEdisp then .throws
  else .ok ⟨r.ra, r.dec, r.energy, r.time, Real.cos (r.zenith * Real.pi / 180), t, e, r.cls⟩

/-- What the loop does with a row: EventContainer.cxx:151-189; an exception leaves the events read
so far in place. -/
noncomputable def readRows (resp : Resp) (ltfrac : ℝ → ℝ) (mask : Nat) (hasTypes : Bool)
    (keep : Ev → Bool) : List Row → List Ev → List Ev × Res Unit
  | [], evs => (evs, .ok ())
  | r :: rs, evs =>
    match readRow resp ltfrac mask hasTypes r with
    | .ok e => readRows resp ltfrac mask hasTypes keep rs (if keep e then evs ++ [e] else evs)
    | .throws => (evs, .throws)
    | .ub => (evs, .ub)

/-- `getEvents`: EventContainer.cxx:48-200; `accept` is `RoiCuts::accept` (see Verif.Roi). -/
noncomputable def getEvents (resp : Resp) (ltfrac : ℝ → ℝ) (accept : Ev → Bool) (applyRoi : Bool)
    (mask : Nat) (f : File) (evs : List Ev) : List Ev × Res Unit :=
  readRows resp ltfrac (f.cuts.foldl Cuts.typeMask mask) f.hasTypes (fun e => !applyRoi || accept e)
    f.rows evs

/-- Several files one after the other, as the tools read them (likelihood.cxx:383-389,
TsMap.cxx:195-198). -/
noncomputable def getFiles (resp : Resp) (ltfrac : ℝ → ℝ) (accept : Ev → Bool) (applyRoi : Bool)
    (mask : Nat) : List File → List Ev → List Ev × Res Unit
  | [], evs => (evs, .ok ())
  | f :: fs, evs =>
    match getEvents resp ltfrac accept applyRoi mask f evs with
    | (evs', .ok ()) => getFiles resp ltfrac accept applyRoi mask fs evs'
    | other => other

end Verif.EvRead
