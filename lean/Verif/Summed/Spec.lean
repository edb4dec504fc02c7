import Mathlib.Algebra.BigOperators.Group.List.Basic
import Verif.Summed.Model

/-!
# What a user expects of a sum of likelihoods

Every component has the same parameters.  Tied parameters move together.  A *slot* is one entry
of the vector of free parameters: a free parameter that is not tied, or a free group of tied
parameters; it is given by the list of the parameter indices it drives.
-/

namespace Verif.Summed.Spec

open SrcModel Verif.Summed

variable {κ K : Type}

/-- The parameters of the first component. -/
def pars (s : S κ K) : List (Par κ K) := (s.comps.head?.map (·.param)).getD []

/-- The slots, in the order of the free parameter vector. -/
def slots (s : S κ K) : List (List Nat) :=
  ((List.range (pars s).length).filter (fun i =>
      ((pars s)[i]?.map (·.free)).getD false && s.ties.all (fun t => decide (i ∉ t.members)))).map
    (fun i => [i]) ++
  (s.ties.filter (fun t => t.par.free)).map (fun t => t.members)

/-- The ties are groups of existing parameters, no parameter is in two groups or twice in one,
the set of tied indices is that of the members, and a group is free when its members are. -/
structure Tidy (s : S κ K) : Prop where
  idx : ∀ i, i ∈ s.tiedIdx ↔ ∃ t ∈ s.ties, i ∈ t.members
  nonempty : ∀ t ∈ s.ties, t.members ≠ []
  nodup : ∀ t ∈ s.ties, t.members.Nodup
  disjoint : s.ties.Pairwise (fun a b => ∀ i ∈ a.members, i ∉ b.members)
  range : ∀ t ∈ s.ties, ∀ i ∈ t.members, i < (pars s).length
  free : ∀ t ∈ s.ties, ∀ i ∈ t.members, ∀ p, (pars s)[i]? = some p → p.free = t.par.free

/-- The parameters held by the sources of every component agree with the list of the first one
in number, names and free flags. -/
def Agree (s : S κ K) : Prop :=
  ∀ m ∈ s.comps, (m.sources.map (fun x => x.2.pars)).flatten.map (fun p => (p.name, p.free)) =
    (pars s).map (fun p => (p.name, p.free))

/-- The sum over components of the derivatives with respect to parameter `i`; priors count once,
for the first component. -/
def der [Add K] [Zero K] (st : List (Stat κ K)) (cs : List (M κ K)) (i : Nat) : K :=
  ((st.zip cs).zipIdx.map (fun x =>
    x.1.1.der (x.1.2.sources.map (fun y => y.2.pars)).flatten (decide (x.2 = 0)) i)).sum

/-- The gradient of the sum: for each slot the sum of the derivatives with respect to all the
parameters it drives. -/
def gradient [Add K] [Zero K] (s : S κ K) (st : List (Stat κ K)) : List K :=
  (slots s).map (fun g => (g.map (der st s.comps)).sum)

end Verif.Summed.Spec
