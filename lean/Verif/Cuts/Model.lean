import Verif.Basic
import Verif.Cuts.Types
import Mathlib.Data.Nat.Bitwise
/-
Checks of the input files (AppHelpers.cxx) as gtlike makes them (likelihood.cxx:238-258).
The reading and the comparison of selections belong to the package dataSubselector and are
parameters.
-/
namespace Verif.Cuts

/-! ### Selections -/

/-- `Cuts::removeRangeCuts("ENERGY", …)` (dataSubselector): the ranges of the energy; called at
AppHelpers.cxx:868-869. -/
def energyRange : Cut → Option (ℝ × ℝ)
  | .range c lo hi => if c = "ENERGY".toList then some (lo, hi) else none
  | _ => none

/-- What is left after `removeRangeCuts("ENERGY")` and `removeVersionCut("IRF_VERSION")`:
AppHelpers.cxx:868-872. -/
def kept : Cut → Bool
  | .range c _ _ => decide (c ≠ "ENERGY".toList)
  | .version c _ => decide (c ≠ "IRF_VERSION".toList)
  | _ => true

/-- One turn of the loop of `getRangeBounds`: AppHelpers.cxx:93-100. -/
noncomputable def narrow (b : ℝ × ℝ) (c : ℝ × ℝ) : ℝ × ℝ :=
  open Classical in
  (if b.1 < c.1 then c.1 else b.1, if b.2 > c.2 then c.2 else b.2)

/-- `getRangeBounds`: AppHelpers.cxx:89-101.  `at(0)` throws without any cut. -/
noncomputable def rangeBounds : List (ℝ × ℝ) → Res (ℝ × ℝ)
  | [] => .throws
  | c :: cs => .ok ((c :: cs).foldl narrow c)

/-- The condition AppHelpers.cxx:888. -/
noncomputable def beyond (ev em : ℝ × ℝ) : Bool :=
  open Classical in decide (em.1 > ev.1 ∨ em.2 < ev.2)

/-- `AppHelpers::checkExpMapCuts` on the selections read: AppHelpers.cxx:865-894. -/
noncomputable def expMapCuts (env : Env) (ev em : List Cut) : Res Unit :=
  if !env.same (ev.filter kept) (em.filter kept) then .throws
  else do
    let b ← rangeBounds (ev.filterMap energyRange)
    let b' ← rangeBounds (em.filterMap energyRange)
    if beyond b b' then .throws else .ok ()

/-- `AppHelpers::checkExpMapCuts`: AppHelpers.cxx:857-895. -/
noncomputable def checkExpMapCuts (env : Env) (evFiles : List Name) (expMap evExt mapExt : Name) :
    Res Unit :=
  expMapCuts env (env.read evFiles evExt false) (env.read [expMap] mapExt false)

/-- The mask of a selection of event types: AppHelpers.cxx:572-578. -/
def typeMask (mask : Nat) : Cut → Nat
  | .bits c m => if c = "EVENT_TYPE".toList then m else mask
  | _ => mask

/-- `AppHelpers::getSelectedEvtTypes`: AppHelpers.cxx:564-587. -/
def selectedTypes (cuts : List Cut) (mask : Nat) : List Nat :=
  (List.range 32).filter (fun j => (cuts.foldl typeMask mask) &&& (1 <<< j) ≠ 0)

/-! ### Selections of several files -/

/-- `AppHelpers::checkCuts(Cuts, Cuts, …)` without streams: AppHelpers.cxx:713-730.  All tools
pass `relyOnStreams = false`. -/
def cutsAgree (env : Env) (a b : List Cut) (compareGtis : Bool) : Bool :=
  if compareGtis then env.same a b else env.sameBut a b

/-- `AppHelpers::checkCuts`: AppHelpers.cxx:603-653 (655-711 for several files). -/
def checkCuts (env : Env) (files1 : List Name) (ext1 file2 ext2 : Name)
    (compareGtis skipClass warnOnly : Bool) : Res (List Warn) :=
  let c1 := env.read files1 ext1 skipClass
  let c2 := env.read [file2] ext2 skipClass
  if !cutsAgree env c1 c2 false then .throws
  else if compareGtis && !cutsAgree env c1 c2 true then
    (if warnOnly then .ok [.gtis] else .throws)
  else .ok []

/-- `gatherGtiCuts`: AppHelpers.cxx:897-905. -/
def gtiOf : Cut → Option (List (ℝ × ℝ))
  | .gti iv => some iv
  | _ => none

/-- The loop over the intervals: AppHelpers.cxx:842-848; it ends with the shorter list. -/
def gtiDiffs : List (ℝ × ℝ) → List (ℝ × ℝ) → ℝ × ℝ → ℝ × ℝ
  | a :: as, b :: bs, d => gtiDiffs as bs (d.1 + |a.1 - b.1|, d.2 + |a.2 - b.2|)
  | _, _, d => d

/-- The loop over the cuts: AppHelpers.cxx:834-850. -/
def compareGti (env : Env) :
    List (List (ℝ × ℝ)) → List (List (ℝ × ℝ)) → Bool × (ℝ × ℝ) → Bool × (ℝ × ℝ)
  | a :: as, b :: bs, s =>
    compareGti env as bs (s.1 && env.sameGti a b,
      if env.sameGti a b then s.2 else gtiDiffs a b s.2)
  | _, _, s => s

/-- `AppHelpers::checkTimeCuts(Cuts, Cuts, …)`: AppHelpers.cxx:817-855.  The sums are `none`
(left uninitialised) if the numbers of cuts differ. -/
def timeCuts (env : Env) (a b : List Cut) : Bool × Option (ℝ × ℝ) :=
  if (a.filterMap gtiOf).length = (b.filterMap gtiOf).length then
    let r := compareGti env (a.filterMap gtiOf) (b.filterMap gtiOf) (true, 0, 0)
    (r.1, some r.2)
  else (false, none)

/-- `AppHelpers::checkTimeCuts` on the selections read: AppHelpers.cxx:740-769, 780-814.  The
message is composed before the decision whether it is a warning, so sums that were never set
are read. -/
def timeCutsReport (env : Env) (a b : List Cut) (warnOnly : Bool) : Res (List Warn) :=
  match timeCuts env a b with
  | (true, _) => .ok []
  | (false, none) => .ub
  | (false, some d) => if warnOnly then .ok [.times d.1 d.2] else .throws

/-- `AppHelpers::checkTimeCuts`: AppHelpers.cxx:732-815. -/
def checkTimeCuts (env : Env) (files1 : List Name) (ext1 file2 ext2 : Name) (warnOnly : Bool) :
    Res (List Warn) :=
  timeCutsReport env (env.read files1 ext1 true) (env.read [file2] ext2 true) warnOnly

/-- The loop over the event files: likelihood.cxx:246-250 (gtfindsrc.cxx:119-123,
TsMap.cxx:169-175, gtcntsmap.cxx:92-97). -/
def checkFiles (env : Env) (first table : Name) (skip : Bool) : List Name → Res (List Warn)
  | [] => .ok []
  | f :: fs => do
    let w ← checkCuts env [first] table f table false skip true
    let ws ← checkFiles env first table skip fs
    .ok (w ++ ws)

/-- The check of the exposure map, if one is given: likelihood.cxx:251-253. -/
noncomputable def checkMap (env : Env) (i : Inputs) : Res Unit :=
  match i.expMap with
  | none => .ok ()
  | some m => checkExpMapCuts env i.events m i.table []

/-- The check of the livetime cube, if one is given: likelihood.cxx:254-257; the mismatch is
only a warning (AppHelpers.h:145). -/
def checkCube (env : Env) (i : Inputs) : Res (List Warn) :=
  match i.expCube with
  | none => .ok []
  | some c => checkTimeCuts env i.events i.table c "Exposure".toList true

/-- The comparison of the event files with the first: likelihood.cxx:246-250. -/
def checkEvents (env : Env) (i : Inputs) : Res (List Warn) :=
  match i.events with
  | [] => .ok []
  | f :: fs => checkFiles env f i.table i.skipClass fs

/-- The checks of an unbinned analysis with gtlike: likelihood.cxx:238-258
(gtfindsrc.cxx:110-131). -/
noncomputable def checkInputs (env : Env) (i : Inputs) : Res (List Warn) := do
  let w ← checkEvents env i
  checkMap env i
  let w' ← checkCube env i
  .ok (w ++ w')

/-! ### Coverage of the counts map -/

/-- The pixels `checkExposureMap_wcs` collects: AppHelpers.cxx:968-993.  First the lower row,
then the right column, the upper row backwards and the left column downwards. -/
def border (nx ny : Nat) : List (Nat × Nat) :=
  (List.range nx).map (fun i => (i + 1, 1)) ++
  (List.range ny).map (fun j => (nx, j + 1)) ++
  (List.range nx).map (fun i => (nx - i, ny)) ++
  (List.range ny).map (fun j => (1, ny - j))

/-- The loop over the pixels collected: AppHelpers.cxx:994-1008.  Both errors end in an
exception. -/
def visit (look : Nat → Nat → Look) : List (Nat × Nat) → Res Unit
  | [] => .ok ()
  | p :: ps =>
    match look p.1 p.2 with
    | .value _ => visit look ps
    | .outside => .throws
    | .fails => .throws

/-- `AppHelpers::checkExposureMap_wcs`: AppHelpers.cxx:960-1009.  `look e i j` is the exposure at
energy `e` in the direction of pixel `(i, j)`. -/
def checkWcs (energies : List ℝ) (look : ℝ → Nat → Nat → Look) (nx ny : Nat) : Res Unit := do
  let e ← vget energies 0
  visit (look e) (border nx ny)

end Verif.Cuts
