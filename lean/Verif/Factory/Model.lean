import Verif.Basic
import Verif.StdMap
import Verif.Factory.Types

/-!
# The source factory: the code

src/SourceFactory.cxx:60-131 (prototypes), 252-258 (the end of `readXml`) and 434-457 (`makeCompositeSource`).

A pointer is the index of a cell; a cell is `none` once deleted, and is not used again.  An exception is the outcome `threw`, or
`false`, with the state it leaves.  Simplified: the parts of a composite source are given by their contents, in the order in which
they are added; making the sources of a file (lines 260-345) is the model `Verif.Xml`.
-/

namespace Verif.Factory

open Verif.StdMap (find put erase keys)

/-- The sources in memory, `m_prototypes` (SourceFactory.h:238), the pointers the client got. -/
structure St (N V : Type) where
  heap : List (Option (Src N V))
  protos : List (N × Nat)
  vars : List Nat

variable {N V : Type} [LinearOrder N]

/-- At the start there is nothing. -/
def St.empty : St N V := ⟨[], [], []⟩

/-- Reading through a pointer. -/
def deref (h : List (Option (Src N V))) (p : Nat) : Res (Src N V) :=
  match h[p]? with
  | some (some s) => .ok s
  | _ => .ub

/-- `delete`. -/
def free (h : List (Option (Src N V))) (p : Nat) : Res (List (Option (Src N V))) := do
  let _ ← deref h p
  .ok (h.set p none)

/-- `SourceFactory::addSource`, SourceFactory.cxx:96-109. -/
def addSource (s : St N V) (n : N) (p : Nat) (fromClone : Bool) : Res (St N V × Bool) :=
  match find s.protos n with
  | some _ => .ok (s, false)
  | none =>
    if fromClone then do
      let x ← deref s.heap p
      .ok ({ s with heap := s.heap ++ [some x], protos := put s.protos n s.heap.length }, true)
    else .ok ({ s with protos := put s.protos n p }, true)

/-- `SourceFactory::replaceSource`, SourceFactory.cxx:111-119.  `name` is a reference to the name of the source (Source.h:83): it is
read again in `addSource`. -/
def replaceSource (s : St N V) (p : Nat) (fromClone : Bool) : Res (St N V × Bool) := do
  let x ← deref s.heap p
  match find s.protos x.name with
  | some q =>
    let h ← free s.heap q
    let y ← deref h p
    addSource { s with heap := h, protos := erase s.protos x.name } y.name p fromClone
  | none => addSource s x.name p fromClone

/-- `SourceFactory::create`, SourceFactory.cxx:72-81. -/
def create (s : St N V) (n : N) : Res (St N V × Option Nat) :=
  match find s.protos n with
  | none => .ok (s, none)
  | some p => do
    let x ← deref s.heap p
    .ok ({ s with heap := s.heap ++ [some x] }, some s.heap.length)

/-- `SourceFactory::releaseSource`, SourceFactory.cxx:83-94. -/
def releaseSource (s : St N V) (n : N) : St N V × Option Nat :=
  match find s.protos n with
  | none => (s, none)
  | some p => ({ s with protos := erase s.protos n }, some p)

/-- The loop of the destructor, SourceFactory.cxx:61-63. -/
def freeAll (h : List (Option (Src N V))) : List (N × Nat) → Res (List (Option (Src N V)))
  | [] => .ok h
  | x :: m => do
    let h' ← free h x.2
    freeAll h' m

/-- `SourceFactory::~SourceFactory`, SourceFactory.cxx:60-66. -/
def destroy (s : St N V) : Res (St N V) := do
  let h ← freeAll s.heap s.protos
  .ok { s with heap := h, protos := [] }

/-- The loop of `readXml`, SourceFactory.cxx:255-258. -/
def loadLoop : St N V → List Nat → Res (St N V × Bool)
  | s, [] => .ok (s, true)
  | s, p :: ps => do
    let x ← deref s.heap p
    let r ← addSource s x.name p true
    if r.2 then
      let h ← free r.1.heap p
      loadLoop { r.1 with heap := h } ps
    else .ok (r.1, false)

/-- The loop of `makeCompositeSource`, SourceFactory.cxx:447-453; `comp` holds the parts so far.  `CompositeSource::addSource`
(CompositeSource.cxx:58-61) refuses a second part of the same name (SourceModel.cxx:197-206). -/
def nestLoop : St N V → List (Src N V) → List Nat → Res (St N V × Option (List (Src N V)))
  | s, comp, [] => .ok (s, some comp)
  | s, comp, p :: ps => do
    let x ← deref s.heap p
    let r ← addSource s x.name p true
    if r.2 then
      if x.name ∈ comp.map Src.name then .ok (r.1, none)
      else
        let t := releaseSource r.1 x.name
        match t.2 with
        | none => .ok (t.1, none)
        | some _ => do
          let h ← free t.1.heap p
          nestLoop { t.1 with heap := h } (comp ++ [x]) ps
    else .ok (r.1, none)

/-- New sources in memory: the result of `makeSources`, SourceFactory.cxx:260-345. -/
def makeAll (s : St N V) (l : List (Src N V)) : St N V × List Nat :=
  ({ s with heap := s.heap ++ l.map some }, (List.range l.length).map (s.heap.length + ·))

/-- The state with another variable of the client. -/
def keep (s : St N V) (p : Nat) : St N V := { s with vars := s.vars ++ [p] }

/-- The outcome of a call that may throw. -/
def out (ok : Bool) : Out N V := if ok then .done else .threw

/-- One call. -/
def step (s : St N V) : Op N V → Res (St N V × Out N V)
  | .make x => .ok (keep { s with heap := s.heap ++ [some x] } s.heap.length, .done)
  | .look i => do
    let p ← vget s.vars i
    let x ← deref s.heap p
    .ok (s, .source x)
  | .edit i t => do
    let p ← vget s.vars i
    let _ ← deref s.heap p
    .ok ({ s with heap := s.heap.set p (some t) }, .done)
  | .drop i => do
    let p ← vget s.vars i
    let h ← free s.heap p
    .ok ({ s with heap := h }, .done)
  | .create n => do
    let r ← create s n
    match r.2 with
    | none => .ok (r.1, .threw)
    | some p => .ok (keep r.1 p, .done)
  | .release n =>
    match (releaseSource s n).2 with
    | none => .ok (s, .threw)
    | some p => .ok (keep (releaseSource s n).1 p, .done)
  | .add n i c => do
    let p ← vget s.vars i
    let r ← addSource s n p c
    .ok (r.1, out r.2)
  | .replace i c => do
    let p ← vget s.vars i
    let r ← replaceSource s p c
    .ok (r.1, out r.2)
  /- `fetchSrcNames`, SourceFactory.cxx:121-136. -/
  | .names => .ok (s, .names (keys s.protos))
  | .load l => do
    let r ← loadLoop (makeAll s l).1 (makeAll s l).2
    .ok (r.1, out r.2)
  | .nest l => do
    let r ← nestLoop (makeAll s l).1 [] (makeAll s l).2
    match r.2 with
    | none => .ok (r.1, .threw)
    | some c => .ok (r.1, .parts c)
  | .close => do
    let t ← destroy s
    .ok (t, .done)

/-- A history. -/
def run (s : St N V) : List (Op N V) → Res (St N V × List (Out N V))
  | [] => .ok (s, [])
  | op :: ops => do
    let r ← step s op
    let t ← run r.1 ops
    .ok (t.1, r.2 :: t.2)

/-- The number of sources in memory. -/
def alive (s : St N V) : Nat := s.heap.countP Option.isSome

end Verif.Factory
