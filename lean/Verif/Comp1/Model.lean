import Verif.Basic
import Verif.SrcModel.Model
/-
Composite likelihood of objects that share the shape of one source each,
src/CompositeLikelihood.cxx.

A component is a likelihood object: its sources in order of name, each with the type of
its spectrum and its parameters.  The map of components is keyed by the address of the
object.  `normPar()` of a spectrum is the parameter that its type says (`normOf`).
Functions and parameters are as assumed in `Verif.SrcModel`; what has been set before an
exception is not followed here.
-/
namespace Verif.Comp1
open SrcModel (Par)

variable {κ K : Type}

/-- A spectrum: `genericName` and the parameters. -/
structure Spectrum (κ K : Type) where
  kind : κ
  pars : List (Par κ K)

/-- One entry of the map of components, CompositeLikelihood.h:67-71: the sources of the
object and the name of the common source. -/
structure Comp (κ K : Type) where
  srcs : List (κ × Spectrum κ K)
  common : κ

/-- `CompositeLikelihood`: `m_components`, `m_normParName`, `m_commonFuncName` and
`m_parameter`. -/
structure State (κ K : Type) where
  comps : List (Nat × Comp κ K)
  norm : κ
  kind : κ
  param : List (Par κ K)

variable [DecidableEq κ]

/-- `sources().find(name)->second`: undefined if there is no such source. -/
def source (srcs : List (κ × Spectrum κ K)) (n : κ) : Res (Spectrum κ K) :=
  match srcs.find? (fun x => x.1 = n) with
  | some x => .ok x.2
  | none => .ub

/-- `addComponent`, CompositeLikelihood.cxx:20-39, for the object at address `a` with the
sources `srcs`; `normOf` gives the name of the normalisation parameter of a type. -/
def addComponent (normOf : κ → κ) (s : State κ K) (a : Nat) (srcs : List (κ × Spectrum κ K)) (name : κ) :
    Res (State κ K) :=
  match srcs.find? (fun x => x.1 = name) with
  | none => .throws
  | some x =>
    if s.comps = [] then
      .ok { s with comps := StdMap.put s.comps a ⟨srcs, name⟩, norm := normOf x.2.kind, kind := x.2.kind }
    else if s.kind ≠ x.2.kind then .throws
    else .ok { s with comps := StdMap.put s.comps a ⟨srcs, name⟩ }

/-- Free parameters of the sources that are not common, CompositeLikelihood.cxx:76-85. -/
def otherFree (c : Comp κ K) : List (Par κ K) :=
  c.srcs.flatMap fun x => if x.1 ≠ c.common then x.2.pars.filter (·.free) else []

/-- `normPar()`: throws if there is no such parameter. -/
def normPar (norm : κ) (ps : List (Par κ K)) : Res (Par κ K) :=
  match ps.find? (fun p => p.name = norm) with
  | some p => .ok p
  | none => .throws

/-- The loop over the normalisations, CompositeLikelihood.cxx:103-110. -/
def freeNorms (norm : κ) : List (Nat × Comp κ K) → Res (List (Par κ K))
  | [] => .ok []
  | (_, c) :: cs => do
    let sp ← source c.srcs c.common
    let p ← normPar norm sp.pars
    let rest ← freeNorms norm cs
    .ok (if p.free then p :: rest else rest)

/-- `getFreeParams`, CompositeLikelihood.cxx:63-111, into an empty vector. -/
def getFreeParams (s : State κ K) : Res (List (Par κ K)) :=
  match s.comps with
  | [] => .throws
  | (_, c) :: _ => do
    let sp ← source c.srcs c.common
    let norms ← freeNorms s.norm s.comps
    .ok (s.comps.flatMap (fun x => otherFree x.2) ++
      (sp.pars.filter (·.free)).filter (fun p => p.name ≠ s.norm) ++ norms)

/-- The loop of `getNumFreeParams`, CompositeLikelihood.cxx:220-242; `first` for the first
component. -/
def countLoop (norm : κ) : Bool → List (Nat × Comp κ K) → Nat → Res Nat
  | _, [], n => .ok n
  | first, (_, c) :: cs, n => do
    let n := c.srcs.foldl (fun n x => if c.common ≠ x.1 then n + (x.2.pars.filter (·.free)).length else n) n
    let sp ← source c.srcs c.common
    let n := if first then
      (sp.pars.filter (·.free)).foldl (fun n p => if p.name ≠ norm then n + 1 else n) n else n
    let p ← normPar norm sp.pars
    countLoop norm false cs (if p.free then n + 1 else n)

/-- `getNumFreeParams`, CompositeLikelihood.cxx:217-244. -/
def getNumFreeParams (s : State κ K) : Res Nat := countLoop s.norm true s.comps 0

/-! ### Derivatives -/

/-- Free parameters of a component with the flag of the common source,
CompositeLikelihood.cxx:267-282: `componentPars` and `commonSrcTypeFlag`. -/
def labels (c : Comp κ K) : List (Bool × κ) :=
  c.srcs.flatMap fun x => (x.2.pars.filter (·.free)).map fun p => (decide (c.common = x.1), p.name)

/-- The three vectors and the counter of the second part of `getFreeDerivs`. -/
structure Acc (K : Type) where
  derivs : List K
  spec : List K
  norms : List K
  ipar : Nat

/-- Loop over all free derivatives, CompositeLikelihood.cxx:296-307; a remainder by zero is
undefined; `at` throws when there are more derivatives than parameters. -/
def splitLoop [Add K] (norm : κ) (npars : Nat) : List (Bool × κ) → List K → Acc K → Res (Acc K)
  | _, [], a => .ok a
  | [], _ :: _, _ => .throws
  | (common, name) :: ls, d :: ds, a =>
    if common = false then splitLoop norm npars ls ds { a with derivs := a.derivs ++ [d] }
    else if name = norm then splitLoop norm npars ls ds { a with norms := a.norms ++ [d] }
    else if npars = 0 then .ub
    else match a.spec[a.ipar % npars]? with
      | none => .throws
      | some x => splitLoop norm npars ls ds
          { a with spec := a.spec.set (a.ipar % npars) (x + d), ipar := a.ipar + 1 }

/-- `getFreeDerivs`, CompositeLikelihood.cxx:246-319; `fd a c` are the derivatives given by
the component.  Without components the first iterator is dereferenced. -/
def getFreeDerivs [Add K] [Zero K] (s : State κ K) (fd : Nat → Comp κ K → List K) : Res (List K) :=
  match s.comps with
  | [] => .ub
  | (_, c) :: _ => do
    let sp ← source c.srcs c.common
    let npars := ((sp.pars.filter (·.free)).filter (fun p => p.name ≠ s.norm)).length
    let acc ← splitLoop s.norm npars (s.comps.flatMap (fun x => labels x.2))
      (s.comps.flatMap (fun x => fd x.1 x.2)) ⟨[], List.replicate npars 0, [], 0⟩
    .ok (acc.derivs ++ acc.spec ++ acc.norms)

/-! ### Setting the parameters -/

variable [Field K] [LinearOrder K] [IsStrictOrderedRing K]

/-- `Parameter::setValue`. -/
def setValue (p : Par κ K) (v : K) : Res (Par κ K) :=
  match p.setValue v with
  | some p' => .ok p'
  | none => .throws

/-- The free parameters of a spectrum take the next values,
CompositeLikelihood.cxx:145-151; the iterator is the list of remaining values. -/
def setFree : List (Par κ K) → List K → Res (List (Par κ K) × List K)
  | [], vs => .ok ([], vs)
  | p :: ps, vs =>
    if p.free then
      match vs with
      | [] => .ub
      | v :: vs => do
        let p' ← setValue p v
        let (ps', r) ← setFree ps vs
        .ok (p' :: ps', r)
    else do
      let (ps', r) ← setFree ps vs
      .ok (p :: ps', r)

/-- The loop over the sources that are not common, CompositeLikelihood.cxx:141-154. -/
def setOthers (common : κ) : List (κ × Spectrum κ K) → List K → Res (List (κ × Spectrum κ K) × List K)
  | [], vs => .ok ([], vs)
  | (n, sp) :: m, vs =>
    if n ≠ common then do
      let (ps, r) ← setFree sp.pars vs
      let (m', r) ← setOthers common m r
      .ok ((n, { sp with pars := ps }) :: m', r)
    else do
      let (m', r) ← setOthers common m vs
      .ok ((n, sp) :: m', r)

/-- The same for all components, CompositeLikelihood.cxx:138-155. -/
def setOthersAll : List (Nat × Comp κ K) → List K → Res (List (Nat × Comp κ K) × List K)
  | [], vs => .ok ([], vs)
  | (a, c) :: cs, vs => do
    let (m, r) ← setOthers c.common c.srcs vs
    let (cs', r) ← setOthersAll cs r
    .ok ((a, { c with srcs := m }) :: cs', r)

/-- `setParam(name, value)` of a function. -/
def setNamed (n : κ) (v : K) : List (Par κ K) → Res (List (Par κ K))
  | [] => .throws
  | p :: ps =>
    if p.name = n then do
      let p' ← setValue p v
      .ok (p' :: ps)
    else do
      let ps' ← setNamed n v ps
      .ok (p :: ps')

/-- The parameters of the spectrum of the source `n`, changed in place. -/
def setSpec (srcs : List (κ × Spectrum κ K)) (n : κ) (ps : List (Par κ K)) : List (κ × Spectrum κ K) :=
  srcs.map fun x => if x.1 = n then (x.1, { x.2 with pars := ps }) else x

/-- The loop that sets the shape of the first component and keeps the values,
CompositeLikelihood.cxx:169-175. -/
def setShape : List κ → List (Par κ K) → List K → Res (List (Par κ K) × List (κ × K) × List K)
  | [], ps, vs => .ok (ps, [], vs)
  | n :: ns, ps, vs =>
    match vs with
    | [] => .ub
    | v :: vs => do
      let ps ← setNamed n v ps
      let (ps, kept, r) ← setShape ns ps vs
      .ok (ps, (n, v) :: kept, r)

/-- The inner loop over the shape parameters, CompositeLikelihood.cxx:186-190. -/
def applyShape : List (κ × K) → List (Par κ K) → Res (List (Par κ K))
  | [], ps => .ok ps
  | (n, v) :: kept, ps => do
    let ps ← setNamed n v ps
    applyShape kept ps

/-- The normalisation takes the next value if it is free, CompositeLikelihood.cxx:191-194. -/
def setNorm (norm : κ) (ps : List (Par κ K)) (vs : List K) : Res (List (Par κ K) × List K) := do
  let p ← normPar norm ps
  if p.free then
    match vs with
    | [] => .ub
    | v :: vs => do
      let ps ← setNamed norm v ps
      .ok (ps, vs)
  else .ok (ps, vs)

/-- The last loop, CompositeLikelihood.cxx:181-195. -/
def setCommon (norm : κ) (kept : List (κ × K)) : List (Nat × Comp κ K) → List K →
    Res (List (Nat × Comp κ K) × List K)
  | [], vs => .ok ([], vs)
  | (a, c) :: cs, vs => do
    let sp ← source c.srcs c.common
    let ps ← applyShape kept sp.pars
    let (ps, r) ← setNorm norm ps vs
    let (cs', r) ← setCommon norm kept cs r
    .ok ((a, { c with srcs := setSpec c.srcs c.common ps }) :: cs', r)

/-- The part of `syncParams` on one parameter list, CompositeLikelihood.cxx:204-210: the
list and the parameter kept apart. -/
def syncPars (norm : κ) (ps : List (Par κ K)) (acc : List (Par κ K) × Par κ K) :
    List (Par κ K) × Par κ K :=
  ps.foldl (fun acc p => if p.name ≠ norm then (acc.1 ++ [p], acc.2) else (acc.1, p)) acc

/-- `syncParams`, CompositeLikelihood.cxx:197-215, with the parameter lists of the
components synchronised; `dflt` is a default-constructed parameter. -/
def syncParams (dflt : Par κ K) (s : State κ K) : State κ K :=
  let acc := s.comps.foldl (fun acc x => syncPars s.norm (x.2.srcs.flatMap (fun y => y.2.pars)) acc) ([], dflt)
  { s with param := acc.1 ++ [acc.2] }

/-- `setFreeParamValues`, CompositeLikelihood.cxx:129-195; what is left of the values is
ignored. -/
def setFreeParamValues (dflt : Par κ K) (s : State κ K) (vs : List K) : Res (State κ K) := do
  let (cs, r) ← setOthersAll s.comps vs
  match cs with
  | [] => .throws
  | (a, c) :: rest => do
    let sp ← source c.srcs c.common
    let names := ((sp.pars.filter (·.free)).map (·.name)).filter (· ≠ s.norm)
    let (ps, kept, r) ← setShape names sp.pars r
    let (cs, _) ← setCommon s.norm kept ((a, { c with srcs := setSpec c.srcs c.common ps }) :: rest) r
    .ok (syncParams dflt { s with comps := cs })

end Verif.Comp1
