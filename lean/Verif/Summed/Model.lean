import Verif.Vec
import Verif.SrcModel.Model

/-!
# Sum of likelihoods with tied parameters (`src/SummedLikelihood.cxx`, `src/TiedParameter.cxx`)

A component is a source model (`Verif.SrcModel.M`); `parameters()` is its list `param`, which the
tie functions write without touching the sources.  The components are distinct objects; the first
one added is the master.  What a component's log-likelihood and its derivatives are is not
modelled here: `Stat` gives them as arbitrary functions of the parameters held by the sources
(for binned likelihoods see `Verif.Binned`).  `optimizers::Parameter` is as in `Verif.SrcModel`;
errors and priors of parameters are left out, except for the flag passed to the components.
-/

namespace Verif.Summed

open SrcModel

/-- `TiedParameter` (`Likelihood/TiedParameter.h:25-77`): the base parameter and the members.
In a summed likelihood every member belongs to the master component. -/
structure Tied (κ K : Type) where
  par : Par κ K
  members : List Nat

/-- `SummedLikelihood` (`Likelihood/SummedLikelihood.h:95-103`): components (the first is the
master), tied parameters and the set of tied indices. -/
structure S (κ K : Type) where
  comps : List (M κ K)
  ties : List (Tied κ K)
  tiedIdx : List Nat

/-- The log-likelihood of a component and its partial derivatives with respect to the `i`-th
parameter, both with a flag for including the priors. -/
structure Stat (κ K : Type) where
  val : List (Par κ K) → Bool → K
  der : List (Par κ K) → Bool → Nat → K

variable {κ K : Type} [LinearOrder κ]

/-- `addComponent` (`src/SummedLikelihood.cxx:29-34`). -/
def addComponent (s : S κ K) (c : M κ K) : S κ K := { s with comps := s.comps ++ [c] }

/-- `m_masterComponent->parameters()`, empty if there is no component (the code would dereference
a null pointer; the callers below test first or treat that case apart). -/
def masterPars (s : S κ K) : List (Par κ K) :=
  match s.comps with
  | [] => []
  | m :: _ => m.param

/-- The test `pars[i].isFree() && m_tiedIndices.find(i) == m_tiedIndices.end()`. -/
def untied (idx : List Nat) (p : Par κ K) (i : Nat) : Bool := p.free && !idx.contains i

/-- Loop over the master's parameters in `getFreeParams` (`src/SummedLikelihood.cxx:59-64`),
starting with index `i`. -/
def untiedLoop (idx : List Nat) : Nat → List (Par κ K) → List (Par κ K)
  | _, [] => []
  | i, p :: ps =>
    if untied idx p i then p :: untiedLoop idx (i + 1) ps else untiedLoop idx (i + 1) ps

/-- Loop over the tied parameters in `getFreeParams` (`src/SummedLikelihood.cxx:66-70`). -/
def tiedLoop : List (Tied κ K) → List (Par κ K)
  | [] => []
  | t :: ts => if t.par.free then t.par :: tiedLoop ts else tiedLoop ts

/-- `getFreeParams` (`src/SummedLikelihood.cxx:48-71`); parameters are appended to the vector
passed in. -/
def getFreeParams (s : S κ K) (params : List (Par κ K)) : Res (List (Par κ K)) :=
  match s.comps with
  | [] => .throws
  | m :: _ => .ok (params ++ untiedLoop s.tiedIdx 0 m.param ++ tiedLoop s.ties)

/-- Counting loops of `getNumFreeParams` (`src/SummedLikelihood.cxx:113-129`). -/
def countUntied (idx : List Nat) : Nat → List (Par κ K) → Nat → Nat
  | _, [], n => n
  | i, p :: ps, n => countUntied idx (i + 1) ps (if untied idx p i then n + 1 else n)

/-- Second counting loop (`src/SummedLikelihood.cxx:123-127`). -/
def countTied : List (Tied κ K) → Nat → Nat
  | [], n => n
  | t :: ts, n => countTied ts (if t.par.free then n + 1 else n)

/-- `getNumFreeParams` (`src/SummedLikelihood.cxx:113-129`); without components a null pointer is
dereferenced. -/
def getNumFreeParams (s : S κ K) : Res Nat :=
  match s.comps with
  | [] => .ub
  | m :: _ => .ok (countTied s.ties (countUntied s.tiedIdx 0 m.param 0))

/-- `tieParameters`' loop (`src/SummedLikelihood.cxx:190-198`) with `TiedParameter::addParam`
(`src/TiedParameter.cxx:35-43`): the first parameter gives the tied one its value, name and
attributes, which are written over each member in the master's list. -/
def tieLoop : List Nat → List (Par κ K) → Tied κ K → List Nat →
    Out (List (Par κ K) × List Nat) (Tied κ K)
  | [], ps, t, idx => .ok (ps, idx) t
  | i :: is, ps, t, idx =>
    match ps[i]? with
    | none => .throws (ps, idx)
    | some p =>
      let t : Tied κ K := if t.members.isEmpty then { t with par := p } else t
      let q : List (Par κ K) × Tied κ K :=
        if t.members.contains i then (ps, t)
        else (ps.set i t.par, { t with members := t.members ++ [i] })
      if idx.contains i then .throws (q.1, idx)
      else tieLoop is q.1 q.2 (idx ++ [i])

/-- Replaces the master's list. -/
def setMaster (s : S κ K) (ps : List (Par κ K)) : S κ K :=
  match s.comps with
  | [] => s
  | m :: ms => { s with comps := { m with param := ps } :: ms }

/-- `tieParameters` (`src/SummedLikelihood.cxx:187-200`); `dflt` is a default-constructed
`Parameter`. -/
def tieParameters (dflt : Par κ K) (s : S κ K) (is : List Nat) : Out (S κ K) Unit :=
  match s.comps, is with
  | [], _ :: _ => .ub
  | _, _ =>
    match tieLoop is (masterPars s) ⟨dflt, []⟩ s.tiedIdx with
    | .ok (ps, idx) t => .ok { setMaster s ps with tiedIdx := idx, ties := s.ties ++ [t] } ()
    | .throws (ps, idx) => .throws { setMaster s ps with tiedIdx := idx }
    | .ub => .ub

/-- First loop of `findIndex` (`src/SummedLikelihood.cxx:233-241`): the answer, or the value of
`j` at the end. -/
def findUntied (idx : List Nat) (par : Nat) : Nat → Nat → List (Par κ K) → Nat ⊕ Nat
  | _, j, [] => .inr j
  | i, j, p :: ps =>
    if untied idx p i then
      if par = i then .inl j else findUntied idx par (i + 1) (j + 1) ps
    else findUntied idx par (i + 1) j ps

/-- Second loop of `findIndex` (`src/SummedLikelihood.cxx:242-247`). -/
def findTied (par : Nat) : Nat → List (Tied κ K) → Option Nat
  | _, [] => none
  | j, t :: ts => if t.members.contains par then some j else findTied par (j + 1) ts

/-- `findIndex` (`src/SummedLikelihood.cxx:228-249`); -1 is `none`. -/
def findIndex (s : S κ K) (par : Nat) : Option Nat :=
  match findUntied s.tiedIdx par 0 0 (masterPars s) with
  | .inl j => some j
  | .inr j => findTied par j s.ties

/-- Loop filling `free_index` in `getFreeDerivs` (`src/SummedLikelihood.cxx:157-167`), from
parameter `i` with counter `n`. -/
def indexLoop (s : S κ K) : Nat → List (Par κ K) → Nat → List (Nat × Nat) → List (Nat × Nat)
  | _, [], _, m => m
  | i, p :: ps, n, m =>
    let m := match findIndex s i with
      | some k => StdMap.put m k n
      | none => m
    indexLoop s (i + 1) ps (if p.free then n + 1 else n) m

/-- The positions of the free parameters in a list. -/
def freePositions : Nat → List (Par κ K) → List Nat
  | _, [] => []
  | i, p :: ps => if p.free then i :: freePositions (i + 1) ps else freePositions (i + 1) ps

/-- `getFreeDerivs` of a component (`src/LogLike.cxx:205-272`,
`src/BinnedLikelihood.cxx:263-369`): one derivative per free parameter, in order. -/
def compDerivs (st : Stat κ K) (m : M κ K) (prior : Bool) : List K :=
  (freePositions 0 (collect m.sources)).map (st.der (collect m.sources) prior)

variable [Field K] [LinearOrder K] [IsStrictOrderedRing K]

/-- `value` (`src/SummedLikelihood.cxx:36-46`): the priors enter through the first component. -/
def valueLoop : List (Stat κ K × M κ K) → Bool → K → K
  | [], _, v => v
  | (st, m) :: cs, prior, v => valueLoop cs false (v + st.val (collect m.sources) prior)

/-- `value` (`src/SummedLikelihood.cxx:36-46`). -/
def value (s : S κ K) (st : List (Stat κ K)) : K := valueLoop (st.zip s.comps) true 0

/-- Loop over `free_index` in `getFreeDerivs` (`src/SummedLikelihood.cxx:179-182`); `at`
throws. -/
def addDerivs (fd : List K) : List (Nat × Nat) → List K → Res (List K)
  | [], ds => .ok ds
  | (k, v) :: m, ds =>
    match ds[k]?, fd[v]? with
    | some d, some f => addDerivs fd m (ds.set k (d + f))
    | _, _ => .throws

/-- Loop over the components in `getFreeDerivs` (`src/SummedLikelihood.cxx:175-184`). -/
def derivLoop (fi : List (Nat × Nat)) : List (Stat κ K × M κ K) → Bool → List K → Res (List K)
  | [], _, ds => .ok ds
  | (st, m) :: cs, prior, ds => do
    let ds ← addDerivs (compDerivs st m prior) fi ds
    derivLoop fi cs false ds

/-- `getFreeDerivs` (`src/SummedLikelihood.cxx:145-185`) into a vector holding `derivs`: resizing
keeps what it holds. -/
def getFreeDerivs (s : S κ K) (st : List (Stat κ K)) (derivs : List K) : Res (List K) :=
  match s.comps with
  | [] => .ub
  | m :: _ =>
    let fi := indexLoop s 0 m.param 0 []
    derivLoop fi (st.zip s.comps) true (vresize derivs fi.length 0)

/-- First loop of `setFreeParamValues` (`src/SummedLikelihood.cxx:81-86`). -/
def setUntied (idx : List Nat) : Nat → List (Par κ K) → List K → Out (List (Par κ K)) (List K)
  | _, [], vs => .ok [] vs
  | i, p :: ps, vs =>
    if untied idx p i then
      match vs with
      | [] => .throws (p :: ps)
      | v :: vs =>
        match p.setValue v with
        | none => .throws (p :: ps)
        | some p' =>
          match setUntied idx (i + 1) ps vs with
          | .ok ps' r => .ok (p' :: ps') r
          | .throws ps' => .throws (p' :: ps')
          | .ub => .ub
    else
      match setUntied idx (i + 1) ps vs with
      | .ok ps' r => .ok (p :: ps') r
      | .throws ps' => .throws (p :: ps')
      | .ub => .ub

/-- Loop over the members in `TiedParameter::setValue` (`src/TiedParameter.cxx:75-81`). -/
def setMembers (v : K) : List Nat → List (Par κ K) → Out (List (Par κ K)) Unit
  | [], ps => .ok ps ()
  | i :: is, ps =>
    match ps[i]? with
    | none => .throws ps
    | some p =>
      match p.setValue v with
      | none => .throws ps
      | some p' => setMembers v is (ps.set i p')

/-- Second loop of `setFreeParamValues` (`src/SummedLikelihood.cxx:87-91`). -/
def setTied : List (Tied κ K) → List (Par κ K) → List K →
    Out (List (Tied κ K) × List (Par κ K)) (List K)
  | [], ps, vs => .ok ([], ps) vs
  | t :: ts, ps, vs =>
    if t.par.free then
      match vs with
      | [] => .throws (t :: ts, ps)
      | v :: vs =>
        match t.par.setValue v with
        | none => .throws (t :: ts, ps)
        | some p' =>
          match setMembers v t.members ps with
          | .throws ps' => .throws ({ t with par := p' } :: ts, ps')
          | .ub => .ub
          | .ok ps' _ =>
            match setTied ts ps' vs with
            | .ok (ts', ps'') r => .ok ({ t with par := p' } :: ts', ps'') r
            | .throws (ts', ps'') => .throws ({ t with par := p' } :: ts', ps'')
            | .ub => .ub
    else
      match setTied ts ps vs with
      | .ok (ts', ps'') r => .ok (t :: ts', ps'') r
      | .throws (ts', ps'') => .throws (t :: ts', ps'')
      | .ub => .ub

/-- Loop of `syncParams` over the components (`src/SummedLikelihood.cxx:95-102`), each being given
the master's parameters. -/
def syncLoop (pars : List (Par κ K)) : List (M κ K) → Out (List (M κ K)) Unit
  | [] => .ok [] ()
  | m :: ms =>
    match setParams_ false m pars with
    | .throws m' => .throws (m' :: ms)
    | .ub => .ub
    | .ok m' _ =>
      match syncLoop pars ms with
      | .ok ms' _ => .ok (sync m' :: ms') ()
      | .throws ms' => .throws (sync m' :: ms')
      | .ub => .ub

/-- `syncParams` (`src/SummedLikelihood.cxx:95-102`).  `pars` is a reference to the master's list,
which the first round replaces by an equal one when it succeeds (`Verif.SrcModel`, C19). -/
def syncParams (s : S κ K) : Out (S κ K) Unit :=
  match s.comps with
  | [] => .ub
  | m :: _ =>
    match syncLoop m.param s.comps with
    | .ok cs _ => .ok { s with comps := cs } ()
    | .throws cs => .throws { s with comps := cs }
    | .ub => .ub

/-- `setFreeParamValues` (`src/SummedLikelihood.cxx:73-93`). -/
def setFreeParamValues (s : S κ K) (vs : List K) : Out (S κ K) Unit :=
  match s.comps with
  | [] => .throws s
  | m :: _ =>
    match setUntied s.tiedIdx 0 m.param vs with
    | .throws ps => .throws (setMaster s ps)
    | .ub => .ub
    | .ok ps r =>
      match setTied s.ties ps r with
      | .throws (ts, ps) => .throws { setMaster s ps with ties := ts }
      | .ub => .ub
      | .ok (ts, ps) _ => syncParams { setMaster s ps with ties := ts }

/-- `fetchParamValues` for the free parameters (`src/SummedLikelihood.cxx:131-138`). -/
def getFreeParamValues (s : S κ K) : Res (List K) := do
  let ps ← getFreeParams s []
  .ok (ps.map (·.value))

end Verif.Summed
