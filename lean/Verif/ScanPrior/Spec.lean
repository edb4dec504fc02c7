import Verif.ScanPrior.Types
import Mathlib.Algebra.BigOperators.Group.Finset.Basic
/-
What priors of scans have to give.
-/
namespace Verif.ScanPrior.Spec

/-- The logarithm of the prior of one parameter, mean and width, at the value `x` times its reference value.  A
prior without width is no constraint. -/
noncomputable def term : Option (ℝ × ℝ) → ℝ → ℝ → ℝ
  | some (m, s), r, x => open Classical in if s = 0 then 0 else -((x * r - m) ^ 2 / (2 * s ^ 2))
  | none, _, _ => 0

/-- The sum over the free parameters; what is left of the values belongs to the test source. -/
noncomputable def logPrior : List (Option (ℝ × ℝ)) → List ℝ → List Bool → List ℝ → ℝ
  | p :: ps, r :: rs, true :: bs, x :: xs => term p r x + logPrior ps rs bs xs
  | _ :: ps, _ :: rs, false :: bs, xs => logPrior ps rs bs xs
  | _, _, _, _ => 0

/-- The inverse of a matrix is its inverse. -/
def Inverts (inv : Sym → Option Sym) : Prop :=
  ∀ c h, inv c = some h → h.n = c.n ∧ ∀ i k, i < c.n → k < c.n →
    ∑ j ∈ Finset.range c.n, h.at' i j * c.at' j k = if i = k then 1 else 0

/-- An operation that does not read the priors of parameters. -/
def Quiet : Op → Prop
  | .remake .. => False
  | _ => True

/-- The number of parameters of a fit. -/
def npar (free : List Bool) (test : Bool) : Nat := free.count true + if test then 1 else 0

end Verif.ScanPrior.Spec
