import Verif.Basic
import Verif.TsVal.Types
/-
Model of the test statistics of gtlike, src/likelihood/likelihood.cxx:836-965.

The log-likelihood, the predicted counts of a source, the separation of directions and the
optimizer are arbitrary functions of the setup: `value` may throw, the optimizer may stop
anywhere and its exceptions are caught (likelihood.cxx:865-869), so only the values of the
free parameters it leaves matter.  `deleteSource` and `addSource` are taken from the map of
sources of SourceModel.cxx:197-218 (`addSource` stores a clone, SourceModel.h:105, so the
source returns as it was).  `optimizers::Parameter::setValue` throws outside the bounds of
the parameter and `setFreeParamValues` throws for a wrong number of values (package
optimizers).  The counts are those of `observedCounts`, likelihood.cxx:919-934.  Messages
are left out.
-/
namespace Verif.TsVal

open Verif

variable {κ D : Type}

/-- `getNumFreeParams` of a spectrum, of a list of parameters. -/
def numFree (ps : List Par) : Nat := (ps.filter (·.free)).length

/-- The parameter list of the source model, `syncParams`, SourceModel.cxx:402-412. -/
def collect : Mod κ D → List Par
  | [] => []
  | (_, s) :: m => s.pars ++ collect m

/-- `getFreeParamValues` of the source model; called at likelihood.cxx:841. -/
def freeValues (m : Mod κ D) : List ℝ := ((collect m).filter (·.free)).map (·.value)

/-- `Parameter::setValue` of package optimizers: throws out of bounds. -/
noncomputable def setValue (p : Par) (v : ℝ) : Res Par := open Classical in
  if p.lo ≤ v ∧ v ≤ p.hi then .ok { p with value := v } else .throws

/-- `Function::setFreeParamValues_` of a spectrum; the rest of the values is returned.
Called at SourceModel.cxx:347-349. -/
noncomputable def setPars : List Par → List ℝ → Res (List Par × List ℝ)
  | [], vs => .ok ([], vs)
  | p :: ps, vs =>
    if p.free then
      match vs with
      | [] => .ub
      | v :: vs => do
        let p' ← setValue p v
        let r ← setPars ps vs
        .ok (p' :: r.1, r.2)
    else do
      let r ← setPars ps vs
      .ok (p :: r.1, r.2)

/-- `SourceModel::setFreeParamValues_`, SourceModel.cxx:345-352. -/
noncomputable def setLoop : Mod κ D → List ℝ → Res (Mod κ D × List ℝ)
  | [], vs => .ok ([], vs)
  | (k, s) :: m, vs => do
    let r ← setPars s.pars vs
    let q ← setLoop m r.2
    .ok ((k, { s with pars := r.1 }) :: q.1, q.2)

/-- `setFreeParamValues` of the source model; called at likelihood.cxx:886, 891. -/
noncomputable def setFree (m : Mod κ D) (vs : List ℝ) : Res (Mod κ D) :=
  if vs.length = numFree (collect m) then do
    let r ← setLoop m vs
    .ok r.1
  else .throws

/-- What an optimizer leaves in the parameters of a spectrum: the free ones get the values
given, as far as there are values. -/
def leavePars : List Par → List ℝ → List Par × List ℝ
  | [], vs => ([], vs)
  | p :: ps, vs =>
    if p.free then
      match vs with
      | [] => (p :: ps, [])
      | v :: vs =>
        let r := leavePars ps vs
        ({ p with value := v } :: r.1, r.2)
    else
      let r := leavePars ps vs
      (p :: r.1, r.2)

/-- What an optimizer leaves in the source model; `find_min_only` called at
likelihood.cxx:866. -/
def leave : Mod κ D → List ℝ → Mod κ D
  | [], _ => []
  | (k, s) :: m, vs =>
    let r := leavePars s.pars vs
    (k, { s with pars := r.1 }) :: leave m r.2

/-- `normPar`, likelihood.cxx:952-955; a spectrum without one throws. -/
def normPar (s : Src D) : Res Par :=
  match s.pars[s.norm]? with
  | some p => .ok p
  | none => .throws

/-- `isDiffuseOrNearby`, likelihood.cxx:957-965, with `ptsrcSeparation`,
likelihood.cxx:60-73; `d` is the direction of the source left out. -/
noncomputable def isDiffuseOrNearby (S : Setup κ D) (d : D) (s : Src D) : Bool :=
  open Classical in
  match s.kind with
  | .diffuse => true
  | .composite => true
  | .point e => decide (S.sep d e < maxdist)

/-- `npredValues`, likelihood.cxx:936-950; the pair of `freeNpred` and `totalNpred`. -/
noncomputable def npredValues (S : Setup κ D) (d : D) : Mod κ D → ℝ × ℝ → Res (ℝ × ℝ)
  | [], acc => .ok acc
  | (_, s) :: m, acc => do
    let p ← normPar s
    npredValues S d m
      (if p.free && isDiffuseOrNearby S d s then acc.1 + S.npred s else acc.1,
       acc.2 + S.npred s)

/-- One round of the loop of `renormModel`, likelihood.cxx:910-915. -/
noncomputable def renormSrc (S : Setup κ D) (d : D) (c : ℝ) (s : Src D) : Res (Src D) := do
  let p ← normPar s
  if p.free && isDiffuseOrNearby S d s then do
    let p' ← setValue p (p.value * c)
    .ok { s with pars := s.pars.set s.norm p' }
  else .ok s

/-- The loop of `renormModel`, likelihood.cxx:908-916. -/
noncomputable def renormLoop (S : Setup κ D) (d : D) (c : ℝ) : Mod κ D → Res (Mod κ D)
  | [] => .ok []
  | (k, s) :: m => do
    let s' ← renormSrc S d c s
    let m' ← renormLoop S d c m
    .ok ((k, s') :: m')

/-- `renormFactor`, likelihood.cxx:902-905. -/
noncomputable def factor (S : Setup κ D) (free total : ℝ) : ℝ := open Classical in
  if 1 + (S.observed - total) / free < 1 then 1 else 1 + (S.observed - total) / free

/-- `renormModel` after the sums, likelihood.cxx:898-916. -/
noncomputable def renormBy (S : Setup κ D) (d : D) (m : Mod κ D) (free total : ℝ) :
    Res (Mod κ D) := open Classical in
  if free ≤ 0 then .ok m else renormLoop S d (factor S free total) m

/-- `renormModel`, likelihood.cxx:894-917. -/
noncomputable def renorm (S : Setup κ D) (d : D) (m : Mod κ D) : Res (Mod κ D) := do
  let r ← npredValues S d m (0, 0)
  renormBy S d m r.1 r.2

/-- `m_logLike->value()`. -/
def value (S : Setup κ D) (m : Mod κ D) : Res ℝ :=
  match S.value m with
  | some v => .ok v
  | none => .throws

/-- The state of the loop: the source model and the two maps handed back. -/
structure St (κ D : Type) where
  mod : Mod κ D
  ts : List (κ × ℝ)
  dist : List (κ × ℝ)

/-- The parameters of the null hypothesis are fitted or rescaled, likelihood.cxx:864-873. -/
noncomputable def refit (S : Setup κ D) (d : D) (m : Mod κ D) : Res (Mod κ D) :=
  if S.tsmin then .ok (leave m (S.fit m)) else renorm S d m

variable [LinearOrder κ]

/-- The part of the loop where the model without the source has free parameters,
likelihood.cxx:861-875: the model left and the value of the null hypothesis. -/
noncomputable def nullFit (S : Setup κ D) (d : D) (m : Mod κ D) : Res (Mod κ D × ℝ) := do
  let v0 ← value S m
  let m' ← refit S d m
  let v1 ← value S m'
  .ok (m', max v1 v0)

/-- The entry of the map if there are no free parameters left, likelihood.cxx:879-883. -/
noncomputable def nullFixed (S : Setup κ D) (lv : ℝ) (n : κ) (m : Mod κ D)
    (ts : List (κ × ℝ)) : List (κ × ℝ) :=
  match S.value m with
  | some v => StdMap.put ts n (2 * (lv - v))
  | none => ts

/-- One round for a point source with free parameters, likelihood.cxx:854-886. -/
noncomputable def pointStep (S : Setup κ D) (lv : ℝ) (fp : List ℝ) (n : κ) (d : D) (s : Src D)
    (st : St κ D) : Res (St κ D) := do
  let m := StdMap.erase st.mod n
  let dist := if S.binned then st.dist else StdMap.put st.dist n (S.sep d S.centre)
  if 0 < numFree (collect m) then do
    let r ← nullFit S d m
    let back ← setFree (StdMap.put r.1 n s) fp
    .ok ⟨back, StdMap.put st.ts n (2 * (lv - r.2)), dist⟩
  else do
    let back ← setFree (StdMap.put m n s) fp
    .ok ⟨back, nullFixed S lv n m st.ts, dist⟩

/-- One round of the loop over the names of the sources, likelihood.cxx:851-887. -/
noncomputable def tsStep (S : Setup κ D) (lv : ℝ) (fp : List ℝ) (n : κ) (st : St κ D) :
    Res (St κ D) :=
  match StdMap.find st.mod n with
  | none => .ub
  | some s =>
    match s.kind with
    | .point d => if 0 < numFree s.pars then pointStep S lv fp n d s st else .ok st
    | .diffuse => .ok st
    | .composite => .ok st

/-- The loop over the names of the sources, likelihood.cxx:849-888. -/
noncomputable def tsLoop (S : Setup κ D) (lv : ℝ) (fp : List ℝ) : List κ → St κ D → Res (St κ D)
  | [], st => .ok st
  | n :: ns, st => do
    let st' ← tsStep S lv fp n st
    tsLoop S lv fp ns st'

/-- `computeTsValues`, likelihood.cxx:836-892, called with the names of all sources and two
empty maps, likelihood.cxx:657-663. -/
noncomputable def computeTsValues (S : Setup κ D) (m : Mod κ D) : Res (St κ D) := do
  let fp := freeValues m
  let lv ← value S m
  let st ← tsLoop S lv fp (StdMap.keys m) ⟨m, [], []⟩
  let back ← setFree st.mod fp
  .ok { st with mod := back }

end Verif.TsVal
