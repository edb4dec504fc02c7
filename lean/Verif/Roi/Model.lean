import Mathlib.Analysis.SpecialFunctions.Log.Basic
import Verif.Basic

/-!
# Event selection (`src/RoiCuts.cxx`, `Likelihood/RoiCuts.h`)

Numbers are reals.  The cut classes of the external package `dataSubselector` are represented by
what `RoiCuts` reads from them: a range cut has a column name, its two ends, a flag telling
whether both ends are set and a test of a value; a GTI cut has the least and greatest time of its
intervals and a test of a time; a cone has a centre and a radius.  The test functions are
arbitrary, so nothing is assumed about whether ends of intervals are included.  The separation of
an event from the centre of the region is an arbitrary function of the centre.
-/

namespace Verif.Roi

/-- `dataSubselector::RangeCut` as used by `src/RoiCuts.cxx:186-205, 245-247`: column name,
`minVal`, `maxVal`, `intervalType() == CLOSED`, and `accept`. -/
structure Range where
  col : String
  lo : ℝ
  hi : ℝ
  closed : Bool
  accepts : ℝ → Bool

/-- `dataSubselector::GtiCut` as used by `src/RoiCuts.cxx:163-173, 241`: `minValue`, `maxValue`
of its intervals and `accept`. -/
structure Gti where
  minValue : ℝ
  maxValue : ℝ
  accepts : ℝ → Bool

/-- `dataSubselector::SkyConeCut` (`src/RoiCuts.cxx:149-153`) and `irfInterface::AcceptanceCone`
(`Likelihood/RoiCuts.h:156`). -/
structure Cone where
  ra : ℝ
  dec : ℝ
  radius : ℝ

/-- An entry of `dataSubselector::Cuts`, by `CutBase::type()` (`src/RoiCuts.cxx:184-211`). -/
inductive Cut where
  | range (r : Range)
  | cone (c : Cone)
  | gti (g : Gti)
  | other

/-- The members of `RoiCuts` (`Likelihood/RoiCuts.h:146-169`).  `cuts = none` is the null
pointer. -/
structure RoiCuts where
  cuts : Option (List Cut)
  eMin : ℝ
  eMax : ℝ
  energies : List ℝ
  cone : Cone
  muZenMax : ℝ
  energyCut : Option Range
  skyCone : Option Cone
  timeRanges : List Range
  gtis : List Gti
  minTime : ℝ
  maxTime : ℝ

/-- What `accept` reads from an `Event` (`src/RoiCuts.cxx:229-263`): arrival time, energy,
separation in degrees from a given centre, cosine of the zenith angle. -/
structure Event where
  time : ℝ
  energy : ℝ
  sep : ℝ → ℝ → ℝ
  muZenith : ℝ

/-- `makeEnergyVector(nee)` (`src/RoiCuts.cxx:126-143`): the lower bound is refused when not
positive; the last entry is replaced by the upper bound (`back()` of an empty vector is
undefined). -/
noncomputable def makeEnergyVector (eMin eMax : ℝ) (nee : Nat) : Res (List ℝ) :=
  if eMin ≤ 0 then .throws
  else
    let estep := Real.log (eMax / eMin) / ((nee : ℝ) - 1)
    let v := (List.range nee).map (fun (i : Nat) => eMin * Real.exp (estep * (i : ℝ)))
    if v.length = 0 then .ub else vset v (v.length - 1) eMax

/-- `evtbin::Gti::operator&=` as used in `src/RoiCuts.cxx:36`: a time is in the intersection when
it is in both.  The ends recorded are not read afterwards by `RoiCuts`. -/
noncomputable def Gti.inter (a b : Gti) : Gti :=
  ⟨max a.minValue b.minValue, min a.maxValue b.maxValue, fun t => a.accepts t && b.accepts t⟩

/-- Replace the first GTI cut in the list held by `Cuts`, to which `m_gtiCuts[0]` points
(`src/RoiCuts.cxx:37-39`: destroyed and rebuilt in place). -/
def replaceGti (g : Gti) : List Cut → List Cut
  | [] => []
  | .gti _ :: cs => .gti g :: cs
  | c :: cs => c :: replaceGti g cs

/-- The closed interval as a test, for the `RangeCut("TIME", "s", tmin, tmax)` and the `Gti` made
in `src/RoiCuts.cxx:30-33`. -/
noncomputable def between (tmin tmax : ℝ) : ℝ → Bool := fun t => decide (tmin ≤ t ∧ t ≤ tmax)

/-- `addTimeInterval` (`src/RoiCuts.cxx:29-47`). -/
noncomputable def addTimeInterval (r : RoiCuts) (tmin tmax : ℝ) : RoiCuts :=
  let r : RoiCuts := { r with timeRanges := r.timeRanges ++ [(⟨"TIME", tmin, tmax, true, between tmin tmax⟩ : Range)] }
  let g : Gti := ⟨tmin, tmax, between tmin tmax⟩
  match r.gtis with
  | old :: rest =>
    { r with gtis := g.inter old :: rest, cuts := r.cuts.map (replaceGti (g.inter old)) }
  | [] => { r with gtis := [g], cuts := some (r.cuts.getD [] ++ [Cut.gti g]) }

/-- `setCuts` (`src/RoiCuts.cxx:70-91`; the defaults of the last two arguments are in
`Likelihood/RoiCuts.h:93-97`). -/
noncomputable def setCuts (r : RoiCuts) (c : Cone) (emin emax tmin tmax : ℝ)
    (muZenMax : ℝ := -1) (resetTlims : Bool := false) : Res RoiCuts := do
  let r := if resetTlims then addTimeInterval { r with timeRanges := [] } tmin tmax else r
  let r := { r with minTime := tmin, maxTime := tmax, eMin := emin, eMax := emax }
  let es ← makeEnergyVector emin emax 100
  .ok { r with energies := es, cone := c, muZenMax := muZenMax }

/-- Counters of `sortCuts` (`src/RoiCuts.cxx:183`). -/
structure Counts where
  nenergy : Nat
  ncone : Nat
  ntime : Nat

/-- The choice of the energy cut in `sortCuts` (`src/RoiCuts.cxx:190-193`).  `sup a b` is
`a.supercedes(b)`, an arbitrary relation.  `*m_energyCut` of a null pointer cannot occur because
`nenergy` is positive then. -/
def pickEnergy (sup : Range → Range → Bool) (r : RoiCuts) (n : Counts) (rc : Range) :
    RoiCuts × Counts :=
  if n.nenergy = 0 ∨ (r.energyCut.map (sup rc)).getD false = true then
    ({ r with energyCut := some rc }, { n with nenergy := n.nenergy + 1 })
  else (r, n)

/-- One pass of the loop of `sortCuts` (`src/RoiCuts.cxx:184-211`). -/
def sortStep (sup : Range → Range → Bool) (r : RoiCuts) (n : Counts) : Cut → Res (RoiCuts × Counts)
  | .range rc =>
    if rc.col = "ENERGY" then
      let p := pickEnergy sup r n rc
      match p.1.energyCut with
      | some e => if e.closed then .ok p else .throws
      | none => .ub
    else if rc.col = "TIME" then
      .ok ({ r with timeRanges := r.timeRanges ++ [rc] }, { n with ntime := n.ntime + 1 })
    else .ok (r, n)
  | .cone c => .ok ({ r with skyCone := some c }, { n with ncone := n.ncone + 1 })
  | .gti g => .ok ({ r with gtis := r.gtis ++ [g] }, { n with ntime := n.ntime + 1 })
  | .other => .ok (r, n)

/-- The loop of `sortCuts` (`src/RoiCuts.cxx:184-211`). -/
def sortLoop (sup : Range → Range → Bool) : List Cut → RoiCuts → Counts → Res (RoiCuts × Counts)
  | [], r, n => .ok (r, n)
  | c :: cs, r, n => do
    let p ← sortStep sup r n c
    sortLoop sup cs p.1 p.2

/-- `sortCuts` (`src/RoiCuts.cxx:177-227`). -/
def sortCuts (sup : Range → Range → Bool) (strict : Bool) (r : RoiCuts) : Res RoiCuts :=
  match r.cuts with
  | none => .ub
  | some cs => do
    let p ← sortLoop sup cs r ⟨0, 0, 0⟩
    if strict && (decide (p.2.nenergy ≠ 1) || decide (p.2.ncone ≠ 1) || decide (p.2.ntime = 0))
    then .throws else .ok p.1

/-- `Cuts::getGtiCuts` (external; used in `src/RoiCuts.cxx:160-161`): the GTI cuts among the
entries. -/
def gtiCuts : List Cut → List Gti
  | [] => []
  | .gti g :: cs => g :: gtiCuts cs
  | _ :: cs => gtiCuts cs

/-- The loop over the GTI cuts in `setRoiData` (`src/RoiCuts.cxx:165-173`).  The second
comparison is `<`, as in the code. -/
noncomputable def timeLoop : List Gti → ℝ → ℝ → ℝ × ℝ
  | [], tmin, tmax => (tmin, tmax)
  | g :: gs, tmin, tmax =>
    timeLoop gs (if g.minValue < tmin then g.minValue else tmin)
      (if g.maxValue < tmax then g.maxValue else tmax)

/-- `setRoiData` (`src/RoiCuts.cxx:145-175`). -/
noncomputable def setRoiData (r : RoiCuts) : Res RoiCuts :=
  let c : Cone := r.skyCone.getD ⟨0, 0, 180⟩
  let emin : ℝ := match r.energyCut with | some e => e.lo | none => 20
  let emax : ℝ := match r.energyCut with | some e => e.hi | none => 200000
  match r.cuts with
  | none => .ub
  | some cs =>
    match gtiCuts cs with
    | [] => .throws
    | g :: gs =>
      let t := timeLoop gs g.minValue g.maxValue
      setCuts r c emin emax t.1 t.2

/-- `readCuts` (`src/RoiCuts.cxx:93-107`), given the list of cuts the external `Cuts` constructor
makes from the file headers. -/
noncomputable def readCuts (sup : Range → Range → Bool) (strict : Bool) (r : RoiCuts)
    (cs : List Cut) : Res RoiCuts := do
  let r ← sortCuts sup strict { r with cuts := some cs }
  setRoiData r

/-- The loop over the time range cuts in `accept` (`src/RoiCuts.cxx:245-247`): the answer is
overwritten in each pass. -/
def timeRangeLoop (t : ℝ) : List Range → Bool → Bool
  | [], b => b
  | r :: rs, _ => timeRangeLoop t rs (r.accepts t)

/-- The loop over the GTI cuts in `accept` (`src/RoiCuts.cxx:239-242`). -/
def gtiLoop (t : ℝ) : List Gti → Bool → Bool
  | [], b => b
  | g :: gs, b => gtiLoop t gs (b || g.accepts t)

/-- `accept` (`src/RoiCuts.cxx:229-263`). -/
noncomputable def accept (r : RoiCuts) (e : Event) : Bool :=
  let a := if r.gtis.length = 0 then true else gtiLoop e.time r.gtis false
  let a := timeRangeLoop e.time r.timeRanges a
  let a := if e.energy < r.eMin ∨ e.energy > r.eMax then false else a
  let a := if e.sep r.cone.ra r.cone.dec > r.cone.radius then false else a
  if e.muZenith < r.muZenMax then false else a

end Verif.Roi
