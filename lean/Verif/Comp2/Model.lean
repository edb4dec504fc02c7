import Mathlib.Logic.Function.Basic
import Verif.Summed.Model

/-!
# Composite likelihood with tied parameters (`src/Composite2.cxx`)

The likelihood objects live outside the composite, which keeps their addresses: `like` gives the
object at an address.  Addresses are natural numbers; the map of components is ordered by address.
A component is a `Verif.SrcModel.M` (its sources and its parameter list) together with a `Stat`
(its log-likelihood and derivatives).  Parameter errors are not modelled.  The loops over the
parameters of one object are those of `Verif.Summed`, which have the same text in both classes.
-/

namespace Verif.Comp2

open SrcModel Summed

/-- `TiedParameter` (`Likelihood/TiedParameter.h`): a parameter and its members, each an object
and an index. -/
structure Tied (κ K : Type) where
  par : Par κ K
  members : List (Nat × Nat)

/-- `Composite2` (`Likelihood/Composite2.h:93-101`): the map from components to their tied
indices, the tied parameters, the list `m_parameter`, and the objects. -/
structure C (κ K : Type) where
  comps : List (Nat × List Nat)
  ties : List (Tied κ K)
  param : List (Par κ K)
  like : Nat → M κ K

variable {κ K : Type} [LinearOrder κ]

/-- Replaces the parameter list of the object at an address. -/
def setList (h : Nat → M κ K) (a : Nat) (ps : List (Par κ K)) : Nat → M κ K :=
  Function.update h a { h a with param := ps }

/-- `addComponent` (`src/Composite2.cxx:30-33`): the tied indices are emptied. -/
def addComponent (s : C κ K) (a : Nat) : C κ K := { s with comps := StdMap.put s.comps a [] }

/-- `TiedParameter::addParam` (`src/TiedParameter.cxx:35-43`); `at` throws. -/
def addParam (h : Nat → M κ K) (t : Tied κ K) (x : Nat × Nat) : Option ((Nat → M κ K) × Tied κ K) :=
  match (h x.1).param[x.2]? with
  | none =>
    -- the first member is read, a later one is read only when it is new
    if t.members.isEmpty || !t.members.contains x then none else some (h, t)
  | some p =>
    let t : Tied κ K := if t.members.isEmpty then { t with par := p } else t
    if t.members.contains x then some (h, t)
    else some (setList h x.1 ((h x.1).param.set x.2 t.par), { t with members := t.members ++ [x] })

/-- Loop of `tieParameters` (`src/Composite2.cxx:37-41`); `m_components[…]` makes a component of
an unknown object. -/
def tieLoop : List (Nat × Nat) → C κ K → Tied κ K → Out (C κ K) (Tied κ K)
  | [], s, t => .ok s t
  | x :: xs, s, t =>
    match addParam s.like t x with
    | none => .throws s
    | some (h, t) =>
      tieLoop xs { s with
        like := h
        comps := StdMap.put s.comps x.1 ((StdMap.find s.comps x.1).getD [] ++ [x.2]) } t

/-- `tieParameters` (`src/Composite2.cxx:35-43`); `dflt` is a default-constructed `Parameter`. -/
def tieParameters (dflt : Par κ K) (s : C κ K) (xs : List (Nat × Nat)) : Out (C κ K) Unit :=
  match tieLoop xs s ⟨dflt, []⟩ with
  | .ok s t => .ok { s with ties := s.ties ++ [t] } ()
  | .throws s => .throws s
  | .ub => .ub

/-- Loop over the components in `getFreeParams` (`src/Composite2.cxx:61-71`). -/
def freeComps (h : Nat → M κ K) : List (Nat × List Nat) → List (Par κ K)
  | [] => []
  | (a, idx) :: cs => untiedLoop idx 0 (h a).param ++ freeComps h cs

/-- Loop over the tied parameters in `getFreeParams` (`src/Composite2.cxx:74-78`). -/
def freeTied : List (Tied κ K) → List (Par κ K)
  | [] => []
  | t :: ts => if t.par.free then t.par :: freeTied ts else freeTied ts

/-- `getFreeParams` (`src/Composite2.cxx:54-79`); the vector passed in is cleared. -/
def getFreeParams (s : C κ K) : Res (List (Par κ K)) :=
  if s.comps.isEmpty then .throws else .ok (freeComps s.like s.comps ++ freeTied s.ties)

/-- `fetchParamValues` for the free parameters (`src/Composite2.cxx:81-95`). -/
def getFreeParamValues (s : C κ K) : Res (List K) := do
  let ps ← getFreeParams s
  .ok (ps.map (·.value))

/-- Counting loop over the components (`src/Composite2.cxx:178-189`). -/
def countComps (h : Nat → M κ K) : List (Nat × List Nat) → Nat → Nat
  | [], n => n
  | (a, idx) :: cs, n => countComps h cs (countUntied idx 0 (h a).param n)

/-- Counting loop over the tied parameters (`src/Composite2.cxx:191-195`). -/
def countTied : List (Tied κ K) → Nat → Nat
  | [], n => n
  | t :: ts, n => countTied ts (if t.par.free then n + 1 else n)

/-- `getNumFreeParams` (`src/Composite2.cxx:176-197`). -/
def getNumFreeParams (s : C κ K) : Nat := countTied s.ties (countComps s.like s.comps 0)

/-- Loop over the components in `findIndex` (`src/Composite2.cxx:242-271`): the answer, or `j` at
the end. -/
def findComps (h : Nat → M κ K) (a par : Nat) : List (Nat × List Nat) → Nat → Nat ⊕ Nat
  | [], j => .inr j
  | (b, idx) :: cs, j =>
    if a = b then
      match findUntied idx par 0 j (h b).param with
      | .inl k => .inl k
      | .inr j => findComps h a par cs j
    else findComps h a par cs (countUntied idx 0 (h b).param j)

/-- Loop over the tied parameters in `findIndex` (`src/Composite2.cxx:273-278`). -/
def findTied (x : Nat × Nat) : Nat → List (Tied κ K) → Option Nat
  | _, [] => none
  | j, t :: ts => if t.members.contains x then some j else findTied x (j + 1) ts

/-- `findIndex` (`src/Composite2.cxx:238-280`); -1 is `none`. -/
def findIndex (s : C κ K) (a par : Nat) : Option Nat :=
  match findComps s.like a par s.comps 0 with
  | .inl j => some j
  | .inr j => findTied (a, par) j s.ties

variable [Field K] [LinearOrder K] [IsStrictOrderedRing K]

/-- `value` (`src/Composite2.cxx:45-52`): each component includes its own priors. -/
def valueLoop (h : Nat → M κ K) (st : Nat → Stat κ K) : List (Nat × List Nat) → K → K
  | [], v => v
  | (a, _) :: cs, v => valueLoop h st cs (v + (st a).val (collect (h a).sources) true)

/-- `value` (`src/Composite2.cxx:45-52`). -/
def value (s : C κ K) (st : Nat → Stat κ K) : K := valueLoop s.like st s.comps 0

/-- Loop over the tied parameters in `getFreeDerivs` (`src/Composite2.cxx:217-224`). -/
def addTied (x : Nat × Nat) (d : K) : List (Tied κ K) → List K → List K
  | t :: ts, v :: vs => (if t.members.contains x then v + d else v) :: addTied x d ts vs
  | _, vs => vs

/-- Loop over the parameters of one component in `getFreeDerivs` (`src/Composite2.cxx:208-228`);
`fd` are the derivatives given by the component, the accumulators are `derivs` and `tp_derivs`. -/
def derivPars (ties : List (Tied κ K)) (a : Nat) (idx : List Nat) (fd : List K) :
    Nat → Nat → List (Par κ K) → List K × List K → Res (List K × List K)
  | _, _, [], acc => .ok acc
  | i, j, p :: ps, (ds, tp) =>
    if p.free then
      if !idx.contains i then
        match fd[j]? with
        | none => .throws
        | some d => derivPars ties a idx fd (i + 1) (j + 1) ps (ds ++ [d], tp)
      else if ties.any (fun t => t.members.contains (a, i)) then
        match fd[j]? with
        | none => .throws
        | some d => derivPars ties a idx fd (i + 1) (j + 1) ps (ds, addTied (a, i) d ties tp)
      else derivPars ties a idx fd (i + 1) (j + 1) ps (ds, tp)
    else derivPars ties a idx fd (i + 1) j ps (ds, tp)

/-- Loop over the components in `getFreeDerivs` (`src/Composite2.cxx:202-229`). -/
def derivComps (ties : List (Tied κ K)) (h : Nat → M κ K) (st : Nat → Stat κ K) :
    List (Nat × List Nat) → List K × List K → Res (List K × List K)
  | [], acc => .ok acc
  | (a, idx) :: cs, acc => do
    let acc ← derivPars ties a idx (compDerivs (st a) (h a) true) 0 0 (h a).param acc
    derivComps ties h st cs acc

/-- Last loop of `getFreeDerivs` (`src/Composite2.cxx:231-235`). -/
def derivTail : List (Tied κ K) → List K → List K
  | t :: ts, v :: vs => if t.par.free then v :: derivTail ts vs else derivTail ts vs
  | _, _ => []

/-- `getFreeDerivs` (`src/Composite2.cxx:199-236`); the vector passed in is cleared. -/
def getFreeDerivs (s : C κ K) (st : Nat → Stat κ K) : Res (List K) := do
  let acc ← derivComps s.ties s.like st s.comps ([], List.replicate s.ties.length 0)
  .ok (acc.1 ++ derivTail s.ties acc.2)

/-- First loop of `setFreeParamValues` (`src/Composite2.cxx:103-114`). -/
def setComps : List (Nat × List Nat) → (Nat → M κ K) → List K → Out (Nat → M κ K) (List K)
  | [], h, vs => .ok h vs
  | (a, idx) :: cs, h, vs =>
    match setUntied idx 0 (h a).param vs with
    | .ok ps r => setComps cs (setList h a ps) r
    | .throws ps => .throws (setList h a ps)
    | .ub => .ub

/-- Loop over the members in `TiedParameter::setValue` (`src/TiedParameter.cxx:75-81`). -/
def setMembers (v : K) : List (Nat × Nat) → (Nat → M κ K) → Out (Nat → M κ K) Unit
  | [], h => .ok h ()
  | x :: xs, h =>
    match (h x.1).param[x.2]? with
    | none => .throws h
    | some p =>
      match p.setValue v with
      | none => .throws h
      | some p' => setMembers v xs (setList h x.1 ((h x.1).param.set x.2 p'))

/-- Second loop of `setFreeParamValues` (`src/Composite2.cxx:116-120`). -/
def setTied : List (Tied κ K) → (Nat → M κ K) → List K →
    Out (List (Tied κ K) × (Nat → M κ K)) (List K)
  | [], h, vs => .ok ([], h) vs
  | t :: ts, h, vs =>
    if t.par.free then
      match vs with
      | [] => .throws (t :: ts, h)
      | v :: vs =>
        match t.par.setValue v with
        | none => .throws (t :: ts, h)
        | some p' =>
          match setMembers v t.members h with
          | .throws h => .throws ({ t with par := p' } :: ts, h)
          | .ub => .ub
          | .ok h _ =>
            match setTied ts h vs with
            | .ok (ts', h) r => .ok ({ t with par := p' } :: ts', h) r
            | .throws (ts', h) => .throws ({ t with par := p' } :: ts', h)
            | .ub => .ub
    else
      match setTied ts h vs with
      | .ok (ts', h) r => .ok (t :: ts', h) r
      | .throws (ts', h) => .throws (t :: ts', h)
      | .ub => .ub

/-- The parameters of a component that are not tied (`src/Composite2.cxx:162-164`). -/
def keep (idx : List Nat) : Nat → List (Par κ K) → List (Par κ K)
  | _, [] => []
  | i, p :: ps => if idx.contains i then keep idx (i + 1) ps else p :: keep idx (i + 1) ps

/-- Loop over the components in `syncParams` (`src/Composite2.cxx:152-168`): the free entries of
the list of each object are given to its sources. -/
def syncComps : List (Nat × List Nat) → (Nat → M κ K) → List (Par κ K) →
    Out ((Nat → M κ K) × List (Par κ K)) Unit
  | [], h, ps => .ok (h, ps) ()
  | (a, idx) :: cs, h, ps =>
    let ps := ps ++ keep idx 0 (h a).param
    match setParams_ true (h a) ((h a).param.filter (·.free)) with
    | .ok m _ => syncComps cs (Function.update h a m) ps
    | .throws m => .throws (Function.update h a m, ps)
    | .ub => .ub

/-- `syncParams` (`src/Composite2.cxx:150-174`). -/
def syncParams (s : C κ K) : Out (C κ K) Unit :=
  match syncComps s.comps s.like [] with
  | .ok (h, ps) _ => .ok { s with like := h, param := ps ++ s.ties.map (·.par) } ()
  | .throws (h, ps) => .throws { s with like := h, param := ps }
  | .ub => .ub

/-- `setFreeParamValues` (`src/Composite2.cxx:97-122`). -/
def setFreeParamValues (s : C κ K) (vs : List K) : Out (C κ K) Unit :=
  if s.comps.isEmpty then .throws s
  else match setComps s.comps s.like vs with
    | .throws h => .throws { s with like := h }
    | .ub => .ub
    | .ok h r =>
      match setTied s.ties h r with
      | .throws (ts, h) => .throws { s with like := h, ties := ts }
      | .ub => .ub
      | .ok (ts, h) _ => syncParams { s with like := h, ties := ts }

end Verif.Comp2
