import Mathlib.Algebra.BigOperators.Group.List.Basic
import Verif.Comp2.Model

/-!
# What a user expects of a composite likelihood

A parameter is an object and an index in its parameter list.  A *slot* is one entry of the vector
of free parameters: a free parameter that is not tied, or a free group of tied parameters; it is
given by the list of the parameters it drives.
-/

namespace Verif.Comp2.Spec

open SrcModel Summed Verif.Comp2

variable {κ K : Type}

/-- The entry of a parameter in the list of its object. -/
def entry (s : C κ K) (x : Nat × Nat) : Option (Par κ K) := (s.like x.1).param[x.2]?

/-- The slots, in the order of the free parameter vector: component by component, then the
groups. -/
def slots (s : C κ K) : List (List (Nat × Nat)) :=
  (s.comps.flatMap (fun c => ((List.range (s.like c.1).param.length).filter (fun i =>
      ((entry s (c.1, i)).map (·.free)).getD false &&
        s.ties.all (fun t => decide ((c.1, i) ∉ t.members)))).map (fun i => [(c.1, i)]))) ++
  (s.ties.filter (fun t => t.par.free)).map (fun t => t.members)

/-- The groups consist of existing parameters of components, each once, the indices noted for
each component are those of the members, and a group is free when its members are. -/
structure Tidy (s : C κ K) : Prop where
  keys : (s.comps.map Prod.fst).Pairwise (· < ·)
  idx : ∀ c ∈ s.comps, ∀ i, i ∈ c.2 ↔ ∃ t ∈ s.ties, (c.1, i) ∈ t.members
  nonempty : ∀ t ∈ s.ties, t.members ≠ []
  nodup : ∀ t ∈ s.ties, t.members.Nodup
  mem : ∀ t ∈ s.ties, ∀ x ∈ t.members, x.1 ∈ s.comps.map Prod.fst
  free : ∀ t ∈ s.ties, ∀ x ∈ t.members, ∃ p, entry s x = some p ∧ p.free = t.par.free

/-- No parameter is in two groups. -/
def Disjoint (s : C κ K) : Prop := s.ties.Pairwise (fun a b => ∀ x ∈ a.members, x ∉ b.members)

/-- The parameter list of an object agrees with the parameters of its sources in names, free
flags, and altogether for the fixed ones. -/
def Agree (m : M κ K) : Prop :=
  List.Forall₂ (fun p q => p.name = q.name ∧ p.free = q.free ∧ (p.free = false → p = q))
    (m.sources.map (fun x => x.2.pars)).flatten m.param

/-- The derivative with respect to a parameter: that of the likelihood of its object. -/
def der (s : C κ K) (st : Nat → Stat κ K) (x : Nat × Nat) : K :=
  (st x.1).der ((s.like x.1).sources.map (fun y => y.2.pars)).flatten true x.2

/-- The gradient of the sum: for each slot the sum of the derivatives with respect to all the
parameters it drives. -/
def gradient [Add K] [Zero K] (s : C κ K) (st : Nat → Stat κ K) : List K :=
  (slots s).map (fun g => (g.map (der s st)).sum)

end Verif.Comp2.Spec
