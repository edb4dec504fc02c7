import Mathlib.Algebra.Order.Field.Basic
import Verif.StdMap
/-
Model of the list of sources and of the parameter list of `SourceModel`,
src/SourceModel.cxx, with the moves between models and composite sources,
src/CompositeSource.cxx.

A source is its name, the parameters of its spectrum, and for a composite source the
sources inside.  The map of sources is keyed by name, in order of name.  Pointers to
sources are not shared between two models, except through the operation `direct`, which
stands for the user changing a spectrum through the pointer returned by `getSource`.

`optimizers::Function` and `optimizers::Parameter` belong to another package.  Assumed of
them: a function has a list of parameters; `setParam` overwrites the parameter with the
same name or throws; `setParamValues_` and `setFreeParamValues_` consume one value per
(free) parameter in order; `setValue` throws if the value is outside the bounds of the
parameter, leaving it as it was; the true value is the value times the scale.
-/
namespace Verif.SrcModel

variable {κ K : Type}

/-- Outcome of a member function: the state after it is also known when it throws. -/
inductive Out (S A : Type) where
  /-- normal return -/
  | ok (s : S) (a : A)
  /-- an exception; the object is left in the given state -/
  | throws (s : S)
  /-- undefined behaviour -/
  | ub

/-- `optimizers::Parameter`. -/
structure Par (κ K : Type) where
  name : κ
  value : K
  scale : K
  lo : K
  hi : K
  free : Bool
deriving DecidableEq

/-- A source: name, parameters of the spectrum, and the inner sources of a composite one
(Source.h, CompositeSource.h). -/
structure Src (κ K : Type) where
  name : κ
  pars : List (Par κ K)
  inner : Option (List (κ × Src κ K))

/-- `SourceModel`: `m_sources`, the inherited list `m_parameter`, and the names of
`m_freeSrcs` (SourceModel.h:239-254). -/
structure M (κ K : Type) where
  sources : List (κ × Src κ K)
  param : List (Par κ K)
  freeSrcs : List κ

/-- A model without sources. -/
def M.empty : M κ K := ⟨[], [], []⟩

/-- `getNumFreeParams` of a function. -/
def numFree (ps : List (Par κ K)) : Nat := (ps.filter (·.free)).length

/-- The loop of `syncParams`, SourceModel.cxx:402-410. -/
def collect : List (κ × Src κ K) → List (Par κ K)
  | [] => []
  | (_, s) :: m => s.pars ++ collect m

/-- `findFreeSrcs`, SourceModel.cxx:670-677. -/
def findFreeSrcs : List (κ × Src κ K) → List κ
  | [] => []
  | (k, s) :: m => if 0 < numFree s.pars then k :: findFreeSrcs m else findFreeSrcs m

/-- `syncParams`, SourceModel.cxx:402-412. -/
def sync (s : M κ K) : M κ K := { s with param := collect s.sources, freeSrcs := findFreeSrcs s.sources }

variable [LinearOrder κ]

/-- `addSource`, SourceModel.cxx:197-206. -/
def addSource (s : M κ K) (src : Src κ K) : Out (M κ K) Unit :=
  match StdMap.find s.sources src.name with
  | none => .ok (sync { s with sources := StdMap.put s.sources src.name src }) ()
  | some _ => .throws s

/-- `deleteSource`, SourceModel.cxx:208-218. -/
def deleteSource (s : M κ K) (n : κ) : Out (M κ K) (Src κ K) :=
  match StdMap.find s.sources n with
  | some src => .ok (sync { s with sources := StdMap.erase s.sources n }) src
  | none => .throws s

/-- The loop of `deleteAllSources`, SourceModel.cxx:223-226. -/
def deleteLoop : List κ → M κ K → Out (M κ K) Unit
  | [], s => .ok s ()
  | n :: ns, s =>
    match deleteSource s n with
    | .ok s' _ => deleteLoop ns s'
    | .throws s' => .throws s'
    | .ub => .ub

/-- `getSrcNames`, SourceModel.cxx:255-261. -/
def getSrcNames (s : M κ K) : List κ := StdMap.keys s.sources

/-- `deleteAllSources`, SourceModel.cxx:220-228. -/
def deleteAllSources (s : M κ K) : Out (M κ K) Unit :=
  match deleteLoop (getSrcNames s) s with
  | .ok s' _ => .ok { s' with param := [] } ()
  | .throws s' => .throws s'
  | .ub => .ub

/-- `Function::setParam`: the parameter of that name is overwritten. -/
def funSetParam (p : Par κ K) : List (Par κ K) → Option (List (Par κ K))
  | [] => none
  | q :: qs => if q.name = p.name then some (p :: qs) else (funSetParam p qs).map (q :: ·)

/-- `Function::getParam`. -/
def funGetParam (n : κ) : List (Par κ K) → Option (Par κ K)
  | [] => none
  | q :: qs => if q.name = n then some q else funGetParam n qs

/-- Replaces the parameters of a source in the map. -/
def setPars (m : List (κ × Src κ K)) (n : κ) (src : Src κ K) (ps : List (Par κ K)) :
    List (κ × Src κ K) := StdMap.put m n { src with pars := ps }

/-- `setParam`, SourceModel.cxx:321-334; `spec` says whether the function name is
"Spectrum". -/
def setParam (s : M κ K) (p : Par κ K) (spec : Bool) (n : κ) : Out (M κ K) Unit :=
  match StdMap.find s.sources n with
  | none => .throws s
  | some src =>
    if spec then
      match funSetParam p src.pars with
      | some ps => .ok (sync { s with sources := setPars s.sources n src ps }) ()
      | none => .throws s
    else .throws s

/-- `getParam`, SourceModel.cxx:354-363. -/
def getParam (s : M κ K) (pn : κ) (spec : Bool) (n : κ) : Option (Par κ K) :=
  match StdMap.find s.sources n with
  | none => none
  | some src => if spec then funGetParam pn src.pars else none

variable [Field K] [LinearOrder K] [IsStrictOrderedRing K]

/-- `Parameter::setValue`: throws out of bounds. -/
def Par.setValue (p : Par κ K) (v : K) : Option (Par κ K) :=
  if p.lo ≤ v ∧ v ≤ p.hi then some { p with value := v } else none

/-- `setParamTrueValue`, SourceModel.cxx:365-374. -/
def setParamTrueValue (s : M κ K) (pn : κ) (spec : Bool) (n : κ) (v : K) : Out (M κ K) Unit :=
  match getParam s pn spec n with
  | none => .throws s
  | some p =>
    match p.setValue (v / p.scale) with
    | none => .throws s
    | some p' =>
      match setParam s p' spec n with
      | .ok s' _ => .ok (sync s') ()
      | .throws s' => .throws s'
      | .ub => .ub

/-- `Function::setParamValues_` and `Function::setFreeParamValues_` of a spectrum: the
iterator is the list of remaining values, reading past its end is undefined. -/
def funSetValues (onlyFree : Bool) : List (Par κ K) → List K → Out (List (Par κ K)) (List K)
  | [], vs => .ok [] vs
  | p :: ps, vs =>
    if onlyFree && !p.free then
      match funSetValues onlyFree ps vs with
      | .ok ps' r => .ok (p :: ps') r
      | .throws ps' => .throws (p :: ps')
      | .ub => .ub
    else
      match vs with
      | [] => .ub
      | v :: vs =>
        match p.setValue v with
        | none => .throws (p :: ps)
        | some p' =>
          match funSetValues onlyFree ps vs with
          | .ok ps' r => .ok (p' :: ps') r
          | .throws ps' => .throws (p' :: ps')
          | .ub => .ub

/-- Loop over the sources of `setParamValues_` and `setFreeParamValues_`,
SourceModel.cxx:338-340, 347-349. -/
def setLoop (onlyFree : Bool) : List (κ × Src κ K) → List K → Out (List (κ × Src κ K)) (List K)
  | [], vs => .ok [] vs
  | (k, src) :: m, vs =>
    match funSetValues onlyFree src.pars vs with
    | .throws ps => .throws ((k, { src with pars := ps }) :: m)
    | .ub => .ub
    | .ok ps r =>
      match setLoop onlyFree m r with
      | .ok m' r' => .ok ((k, { src with pars := ps }) :: m') r'
      | .throws m' => .throws ((k, { src with pars := ps }) :: m')
      | .ub => .ub

/-- `setParamValues_` and `setFreeParamValues_`, SourceModel.cxx:336-352. -/
def setParamValues_ (onlyFree : Bool) (s : M κ K) (vs : List K) : Out (M κ K) (List K) :=
  match setLoop onlyFree s.sources vs with
  | .ok m r => .ok (sync { s with sources := m }) r
  | .throws m => .throws { s with sources := m }
  | .ub => .ub

/-- Number of (free) parameters in a list. -/
def count (onlyFree : Bool) (ps : List (Par κ K)) : Nat := if onlyFree then numFree ps else ps.length

/-- `Function::setParamValues` and `setFreeParamValues` as inherited by `SourceModel`: the
number of values is checked against the parameter list of the model. -/
def setParamValues (onlyFree : Bool) (s : M κ K) (vs : List K) : Out (M κ K) Unit :=
  if vs.length ≠ count onlyFree s.param then .throws s
  else match setParamValues_ onlyFree s vs with
    | .ok s' _ => .ok s' ()
    | .throws s' => .throws s'
    | .ub => .ub

/-- `Function::getParamValues` and `getFreeParamValues` as inherited by `SourceModel`. -/
def getParamValues (onlyFree : Bool) (s : M κ K) : List K :=
  (if onlyFree then s.param.filter (·.free) else s.param).map (·.value)

/-- Inner loop of `setParams_`, SourceModel.cxx:394-397, with `cnt` parameters to go. -/
def setParamsFun : Nat → List (Par κ K) → List (Par κ K) → Out (List (Par κ K)) (List (Par κ K))
  | 0, ps, rest => .ok ps rest
  | c + 1, ps, rest =>
    match rest with
    | [] => .ub
    | p :: rest =>
      match funSetParam p ps with
      | none => .throws ps
      | some ps' => setParamsFun c ps' rest

/-- Outer loop of `setParams_`, SourceModel.cxx:389-398. -/
def setParamsLoop (onlyFree : Bool) : List (κ × Src κ K) → List (Par κ K) →
    Out (List (κ × Src κ K)) (List (Par κ K))
  | [], rest => .ok [] rest
  | (k, src) :: m, rest =>
    match setParamsFun (count onlyFree src.pars) src.pars rest with
    | .throws ps => .throws ((k, { src with pars := ps }) :: m)
    | .ub => .ub
    | .ok ps r =>
      match setParamsLoop onlyFree m r with
      | .ok m' r' => .ok ((k, { src with pars := ps }) :: m') r'
      | .throws m' => .throws ((k, { src with pars := ps }) :: m')
      | .ub => .ub

/-- `setParams_`, SourceModel.cxx:376-400 (`setParams`, `setFreeParams`,
SourceModel.h:88-94). -/
def setParams_ (onlyFree : Bool) (s : M κ K) (params : List (Par κ K)) : Out (M κ K) Unit :=
  if params.length ≠ count onlyFree s.param then .throws s
  else match setParamsLoop onlyFree s.sources params with
    | .ok m _ => .ok (sync { s with sources := m }) ()
    | .throws m => .throws { s with sources := m }
    | .ub => .ub

/-- The operations of a user. -/
inductive Op (κ K : Type) where
  | add (src : Src κ K)
  | delete (n : κ)
  | deleteAll
  | setParam (p : Par κ K) (spec : Bool) (n : κ)
  | setTrueValue (pn : κ) (spec : Bool) (n : κ) (v : K)
  | setValues (onlyFree : Bool) (vs : List K)
  | setParams (onlyFree : Bool) (ps : List (Par κ K))
  /-- the user changes a spectrum through the pointer given by `getSource` -/
  | direct (n : κ) (ps : List (Par κ K))
  | sync

/-- Drops the returned value. -/
def Out.void {S A : Type} : Out S A → Out S Unit
  | .ok s _ => .ok s ()
  | .throws s => .throws s
  | .ub => .ub

/-- One operation. -/
def step (s : M κ K) : Op κ K → Out (M κ K) Unit
  | .add src => addSource s src
  | .delete n => (deleteSource s n).void
  | .deleteAll => deleteAllSources s
  | .setParam p spec n => setParam s p spec n
  | .setTrueValue pn spec n v => setParamTrueValue s pn spec n v
  | .setValues f vs => setParamValues f s vs
  | .setParams f ps => setParams_ f s ps
  | .direct n ps =>
    match StdMap.find s.sources n with
    | some src => .ok { s with sources := setPars s.sources n src ps } ()
    | none => .throws s
  | .sync => .ok (sync s) ()

/-- A history; exceptions are caught and the object is used on. -/
def run (s : M κ K) : List (Op κ K) → Option (M κ K)
  | [] => some s
  | op :: ops =>
    match step s op with
    | .ok s' _ => run s' ops
    | .throws s' => run s' ops
    | .ub => none

/-! ### Moves between models -/

/-- `steal_source`, SourceModel.cxx:283-292, and `give_source`, 294-303, with the roles
exchanged: the source `n` goes from the first to the second model. -/
def moveSource (src dst : M κ K) (n : κ) : Out (M κ K × M κ K) Unit :=
  match deleteSource src n with
  | .throws a => .throws (a, dst)
  | .ub => .ub
  | .ok a x =>
    match addSource dst x with
    | .ok b _ => .ok (a, b) ()
    | .throws b => .throws (a, b)
    | .ub => .ub

/-- The loop of `mergeSources` over the names, SourceModel.cxx:310-312
(CompositeSource::steal_source, CompositeSource.cxx:218-229, for a model that is not a
binned likelihood). -/
def mergeLoop : List κ → M κ K → M κ K → Out (M κ K × M κ K) Unit
  | [], s, c => .ok (s, c) ()
  | n :: ns, s, c =>
    match moveSource s c n with
    | .ok (s', c') _ => mergeLoop ns s' c'
    | .throws p => .throws p
    | .ub => .ub

/-- `mergeSources`, SourceModel.cxx:305-315; `spec` are the parameters of the spectrum of
the new composite source. -/
def mergeSources (s : M κ K) (comp : κ) (names : List κ) (spec : List (Par κ K)) :
    Out (M κ K) Unit :=
  match mergeLoop names s M.empty with
  | .throws (s', _) => .throws s'
  | .ub => .ub
  | .ok (s', c) _ => addSource s' ⟨comp, spec, some c.sources⟩

/-- The loop of `splitCompositeSource`, SourceModel.cxx:274-276. -/
def splitLoop : List κ → M κ K → M κ K → Out (M κ K × M κ K) Unit
  | [], c, s => .ok (c, s) ()
  | n :: ns, c, s =>
    match moveSource c s n with
    | .ok (c', s') _ => splitLoop ns c' s'
    | .throws p => .throws p
    | .ub => .ub

/-- `splitCompositeSource`, SourceModel.cxx:263-281: the names and the spectrum are
returned. -/
def splitCompositeSource (s : M κ K) (comp : κ) : Out (M κ K) (List κ × List (Par κ K)) :=
  match deleteSource s comp with
  | .throws s' => .throws s'
  | .ub => .ub
  | .ok s' x =>
    match x.inner with
    | none => .throws s'
    | some inner =>
      match splitLoop (StdMap.keys inner) (sync ⟨inner, [], []⟩) s' with
      | .ok (_, s'') _ => .ok s'' (StdMap.keys inner, x.pars)
      | .throws (_, s'') => .throws s''
      | .ub => .ub

end Verif.SrcModel
