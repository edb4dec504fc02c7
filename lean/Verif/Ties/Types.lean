import Mathlib.Data.Real.Basic
import Verif.Basic
/-
Likelihoods with tied parameters.
-/
namespace Verif.Ties

/-- A parameter; what else it has is left out. -/
structure Par where
  name : Nat
  value : ℝ
  free : Bool

/-- A source with the parameters of its spectrum. -/
structure Src where
  name : Nat
  pars : List Par

/-- A likelihood: the sources in the order of their names, and the vector of parameters that is
kept besides. -/
structure Comp where
  srcs : List Src
  pars : List Par

/-- A tied parameter: its own copy, and its members as numbers of components and of parameters
in their vectors. -/
structure Tie where
  par : Par
  members : List (Nat × Nat)

/-- The components and the tied parameters. -/
structure World where
  comps : List Comp
  ties : List Tie

/-- How a call ends. -/
inductive Exit
  | ok
  | throws
  | ub
  deriving DecidableEq

/-- What is done with tied parameters: one of the setters, and the addition and removal of a
member. -/
inductive Op
  | set (k : Nat) (f : Par → Res Par)
  | add (k i j : Nat)
  | remove (k i j : Nat)

end Verif.Ties
