import Mathlib.Algebra.BigOperators.Group.List.Basic
import Verif.Comp1.Model
/-
What a user expects of the free parameters of a composite likelihood.

A parameter is given by an object, a source and a name.  A *slot* is one entry of the vector
of free parameters: the list of the parameters it drives.
-/
namespace Verif.Comp1.Spec
open SrcModel (Par)
open Verif.Comp1

variable {κ K : Type} [DecidableEq κ]

/-- Names of the free parameters of a source of a component. -/
def freeNames (c : Comp κ K) (n : κ) : List κ :=
  match c.srcs.find? (fun x => x.1 = n) with
  | some x => (x.2.pars.filter (·.free)).map (·.name)
  | none => []

/-- The parameter with a given name of a source of a component. -/
def entry (c : Comp κ K) (n p : κ) : Option (Par κ K) :=
  match c.srcs.find? (fun x => x.1 = n) with
  | some x => x.2.pars.find? (fun q => q.name = p)
  | none => none

/-- The parameter given by an object, a source and a name. -/
def lookup (s : State κ K) (x : Nat × κ × κ) : Option (Par κ K) :=
  match s.comps.find? (fun y => y.1 = x.1) with
  | some y => entry y.2 x.2.1 x.2.2
  | none => none

/-- The shape parameters: the free parameters of the common source of the first component,
without the normalisation. -/
def shapeNames (s : State κ K) : List κ :=
  match s.comps with
  | [] => []
  | (_, c) :: _ => (freeNames c c.common).filter (· ≠ s.norm)

/-- The slots, in the order of the free parameter vector: the free parameters of all sources
that are not common; the shape parameters, which drive all common sources; the free
normalisations of the common sources. -/
def slots (s : State κ K) : List (List (Nat × κ × κ)) :=
  (s.comps.flatMap fun x => ((x.2.srcs.map Prod.fst).filter (· ≠ x.2.common)).flatMap fun n =>
    (freeNames x.2 n).map fun p => [(x.1, n, p)]) ++
  (shapeNames s).map (fun p => s.comps.map fun x => (x.1, x.2.common, p)) ++
  (s.comps.filter fun x => s.norm ∈ freeNames x.2 x.2.common).map fun x => [(x.1, x.2.common, s.norm)]

/-- The components are in order, each has a common source, sources have different names and
so have the parameters of each source; all common sources have the normalisation and the
shape parameters. -/
structure Tidy (s : State κ K) : Prop where
  nonempty : s.comps ≠ []
  keys : (s.comps.map Prod.fst).Pairwise (· < ·)
  sources : ∀ x ∈ s.comps, (x.2.srcs.map Prod.fst).Nodup
  params : ∀ x ∈ s.comps, ∀ y ∈ x.2.srcs, (y.2.pars.map (·.name)).Nodup
  common : ∀ x ∈ s.comps, x.2.common ∈ x.2.srcs.map Prod.fst
  norms : ∀ x ∈ s.comps, (entry x.2 x.2.common s.norm).isSome
  shapes : ∀ x ∈ s.comps, ∀ p ∈ shapeNames s, (entry x.2 x.2.common p).isSome

end Verif.Comp1.Spec
