import Verif.GaussPar.Types
import Mathlib.Algebra.BigOperators.Group.Finset.Basic
/-
Integrals of a response by the trapezoid rule.
-/
namespace Verif.GaussPar.Spec

/-- The point at a place. -/
def nth (l : List Point) (i : Nat) : Point := l[i]?.getD (0, 0)

/-- The integral of energy to the power `k` times the response. -/
noncomputable def moment (k : Nat) (l : List Point) : ℝ :=
  ∑ i ∈ Finset.range (l.length - 1), ((nth l (i + 1)).1 - (nth l i).1) *
    ((nth l i).1 ^ k * (nth l i).2 + (nth l (i + 1)).1 ^ k * (nth l (i + 1)).2) / 2

/-- Energies in ascending order. -/
def Ascending : List Point → Prop
  | [] => True
  | [_] => True
  | p :: q :: l => p.1 ≤ q.1 ∧ Ascending (q :: l)

end Verif.GaussPar.Spec
