import Verif.Basic
import Verif.ScanPrior.Types
import Mathlib.Analysis.SpecialFunctions.Sqrt
/-
Model of the priors of scans: `FitScanMVPrior` and the functions of `FitScanCache` that make priors, in
src/FitScanner.cxx.  A mistake in the size of CLHEP vectors and matrices is an exception; their elements are read
without a check.  New matrices are zero.  The inverse of a matrix is an arbitrary function.
-/
namespace Verif.ScanPrior

/-- `m[i][j]`. -/
def Sym.get (m : Sym) (i j : Nat) : Res ℝ := if i < m.n ∧ j < m.n then .ok (m.at' i j) else .ub

/-- A matrix of zeros with `sub(1, m)`. -/
noncomputable def Sym.extend (m : Sym) (n : Nat) : Res Sym :=
  if m.n ≤ n then .ok ⟨n, fun i j => if i < m.n ∧ j < m.n then m.at' i j else 0⟩ else .throws

/-- A diagonal matrix. -/
noncomputable def Sym.diag (d : List ℝ) : Sym := ⟨d.length, fun i j => if i = j then d[i]?.getD 0 else 0⟩

/-- `m.sub(1, n)`. -/
def Sym.top (m : Sym) (n : Nat) : Res Sym := if n ≤ m.n then .ok ⟨n, m.at'⟩ else .throws

/-- The numbers of the constrained parameters, FitScanner.cxx:293-299, 336-342. -/
def idxRed : Nat → List Bool → List Nat
  | _, [] => []
  | k, b :: bs => if b then k :: idxRed (k + 1) bs else idxRed (k + 1) bs

/-- The covariance of the constrained parameters, FitScanner.cxx:301-312. -/
noncomputable def reduced (cov : Sym) (idx : List Nat) : Res Sym :=
  if idx.length < cov.n then do
    let rows ← idx.mapM fun i => idx.mapM fun j => cov.get i j
    .ok ⟨idx.length, fun i j => ((rows[i]?.getD [])[j]?).getD 0⟩
  else .ok cov

/-- `latchReducedMatrix`, FitScanner.cxx:289-330, which sets only the Hessian. -/
noncomputable def latchMatrix (inv : Sym → Option Sym) (cov : Sym) (constrain : List Bool) (incl : Bool) : Res Sym := do
  let idx := idxRed 0 constrain
  let c ← reduced cov idx
  match inv c with
  | none => .throws
  | some h => if incl then h.extend (idx.length + 1) else .ok h

/-- `update` with a covariance matrix, FitScanner.cxx:235-249. -/
noncomputable def updateCov (inv : Sym → Option Sym) (central : List ℝ) (cov : Sym) (constrain : List Bool) (incl : Bool) :
    Res Prior := do
  let h ← latchMatrix inv cov constrain incl
  .ok ⟨if incl then central ++ [0] else central, cov, h, constrain, incl⟩

/-- The two values, FitScanner.cxx:272-273; without a width there is no constraint. -/
noncomputable def diagValue (u : ℝ) : ℝ × ℝ := open Classical in if 0 < |u| then (u * u, 1 / (u * u)) else (0, 0)

/-- Covariance and Hessian of one parameter, FitScanner.cxx:270-275. -/
noncomputable def diagEntry (unc : List ℝ) (has : List Bool) (i : Nat) : Res (ℝ × ℝ) := do
  let b ← vget has i
  if b then do
    let u ← vget unc i
    .ok (diagValue u)
  else .ok (0, 0)

/-- `update` with uncertainties, FitScanner.cxx:252-277, with `latchReducedDiagonal`, 333-372. -/
noncomputable def updateDiag (central unc : List ℝ) (has constrain : List Bool) (incl : Bool) : Res Prior := do
  let d ← (List.range central.length).mapM (diagEntry unc has)
  let d := if incl then d ++ [(0, 0)] else d
  let c := if incl then central ++ [0] else central
  let idx := idxRed 0 constrain
  let rd ← idx.mapM (vget d)
  let rc ← idx.mapM (vget c)
  if incl then .ok ⟨rc ++ [0], Sym.diag (rd.map Prod.fst ++ [0]), Sym.diag (rd.map Prod.snd ++ [0]), constrain, incl⟩
  else .ok ⟨rc, Sym.diag (rd.map Prod.fst), Sym.diag (rd.map Prod.snd), constrain, incl⟩

/-- `get_uncertainties`, FitScanner.cxx:280-286. -/
noncomputable def uncertainties (p : Prior) : Res (List ℝ) :=
  (List.range p.central.length).mapM fun i => do
    let v ← p.cov.get i i
    .ok (Real.sqrt v)

/-- `logLikelihood`, FitScanner.cxx:223-228: differences and products of vectors and matrices of different sizes are
exceptions. -/
noncomputable def Prior.logLike (p : Prior) (x : List ℝ) : Res ℝ :=
  if x.length ≠ p.central.length then .throws
  else if p.hess.n ≠ x.length then .throws
  else .ok (-(1 / 2) * ∑ i ∈ Finset.range x.length, ∑ j ∈ Finset.range x.length,
    (x[i]?.getD 0 - p.central[i]?.getD 0) * p.hess.at' i j * (x[j]?.getD 0 - p.central[j]?.getD 0))

/-- The prior in a likelihood, FitScanner.cxx:1389-1394. -/
noncomputable def contribution (p : Option Prior) (x : List ℝ) : Res ℝ :=
  match p with
  | none => .ok 0
  | some p => p.logLike x

/-- `getPrior`, FitScanner.cxx:1616-1637. -/
def getPrior (st : St) : Version → Bool → Option Prior
  | .none, _ => .none
  | .full, t => if t then st.fullT else st.fullB
  | .init, t => if t then st.initT else st.initB
  | .global, t => if t then st.globT else st.globB
  | .local', t => if t then st.locT else st.locB

/-- Mean and width in units of the reference value, FitScanner.cxx:1854-1862. -/
noncomputable def rescale (refv : List ℝ) (i : Nat) (p : Option (ℝ × ℝ)) : ℝ × ℝ × Bool :=
  let m := (p.map Prod.fst).getD 0
  let s := (p.map Prod.snd).getD 0
  match refv[i]? with
  | none => (m, s, p.isSome)
  | some r => open Classical in if r < 1e-15 then (m, s, false) else (m / r, s / r, p.isSome)

/-- `extract_init_priors_from_model`, FitScanner.cxx:1831-1875, with `extractPriors`, FitUtils.cxx:1549-1567. -/
noncomputable def extract (ps : List (Option (ℝ × ℝ))) (st : St) : Res St := do
  let st' := { st with fullT := none, fullB := none, initT := none, initB := none }
  if ps.any Option.isSome then
    if ps.length < st.refv.length then .ub
    else do
      let l := ps.zipIdx.map fun p => rescale st.refv p.2 p.1
      let free := List.replicate ps.length true
      let t ← updateDiag (l.map fun q => q.1) (l.map fun q => q.2.1) (l.map fun q => q.2.2) free true
      let b ← updateDiag (l.map fun q => q.1) (l.map fun q => q.2.1) (l.map fun q => q.2.2) free false
      .ok { st' with fullT := some t, fullB := some b }
  else .ok st'

/-- `refactorPrior`, FitScanner.cxx:1119-1149. -/
noncomputable def refactorPrior (free : List Bool) (st : St) : Res St :=
  match st.fullB with
  | none => .ok { st with initT := none, initB := none }
  | some p => do
    let u ← uncertainties p
    let has := List.replicate u.length true
    let b ← updateDiag p.central u has free false
    let t ← updateDiag p.central u has free true
    .ok { st with initT := some t, initB := some b }

/-- The scales of the free templates, FitUtils.cxx:1594-1606. -/
def freeScales : List Bool → List ℝ → List ℝ
  | true :: bs, s :: ss => s :: freeScales bs ss
  | false :: bs, _ :: ss => freeScales bs ss
  | _, _ => []

/-- `refactorModel`, FitScanner.cxx:1064-1117: parameters, covariance and priors. -/
noncomputable def refactorModel (free : List Bool) (scales : List ℝ) (test : Bool) (st : St) : Res St :=
  if st.nbkg ≠ free.length then .throws
  else if scales.length < free.length then .ub
  else do
    let pars := freeScales free scales ++ (if test then [0] else [])
    let st' ← refactorPrior free { st with pars := pars, cov := ⟨pars.length, fun _ _ => 0⟩, free := free, test := test }
    .ok { st' with locT := none, locB := none }

/-- A prior that exists is updated, another one is made: the result is the same. -/
noncomputable def buildExternal (inv : Sym → Option Sym) (central : List ℝ) (cov : Sym) (constrain : List Bool) (glob : Bool)
    (st : St) : Res St := do
  let t ← updateCov inv central cov constrain true
  if glob then
    -- `m_prior_bkg` is tested, but `m_global_prior_bkg` updated, FitScanner.cxx:1284-1288
    if st.locB.isSome && st.globB.isNone then .ub
    else do
      let b ← updateCov inv central cov constrain false
      .ok { st with globT := some t, globB := some b }
  else do
    let b ← updateCov inv central cov constrain false
    .ok { st with locT := some t, locB := some b }

/-- `buildPriorsFromCurrent`, FitScanner.cxx:1319-1332. -/
noncomputable def buildCurrent (inv : Sym → Option Sym) (constrain : List Bool) (scale : ℝ) (glob : Bool) (st : St) : Res St :=
  if st.test then
    if st.pars.length < st.nbkg then .throws
    else do
      let c ← st.cov.top st.nbkg
      buildExternal inv (st.pars.take st.nbkg) ⟨c.n, fun i j => scale * c.at' i j⟩ constrain glob st
  else buildExternal inv st.pars ⟨st.cov.n, fun i j => scale * st.cov.at' i j⟩ constrain glob st

/-- One operation: `addTestSourceToCurrent`, FitScanner.cxx:1217-1244, and `removeTestSourceFromCurrent`, 1246-1268,
change parameters and covariance; a fit replaces them, lines 1334-1357. -/
noncomputable def step (inv : Sym → Option Sym) : Op → St → Res St
  | .refactor free scales test, st => refactorModel free scales test st
  | .addTest, st => if st.test then .ok st else do
      let c ← st.cov.extend (st.pars.length + 1)
      .ok { st with test := true, pars := st.pars ++ [0], cov := c }
  | .removeTest, st => if !st.test then .ok st else do
      let c ← st.cov.top (st.pars.length - 1)
      .ok { st with test := false, pars := st.pars.dropLast, cov := c }
  | .fit pars cov, st => .ok { st with pars := pars, cov := cov }
  | .external central cov constrain glob, st => buildExternal inv central cov constrain glob st
  | .current constrain scale glob, st => buildCurrent inv constrain scale glob st
  | .remake ps free scales, st => do
      let st' ← extract ps st
      refactorModel free scales st.test st'

/-- A sequence of operations. -/
noncomputable def run (inv : Sym → Option Sym) : List Op → St → Res St
  | [], st => .ok st
  | o :: os, st => do
    let st' ← step inv o st
    run inv os st'

end Verif.ScanPrior
