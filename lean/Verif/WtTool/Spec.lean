import Verif.WtTool.Types
import Mathlib.Analysis.SpecialFunctions.Sqrt
import Mathlib.Algebra.BigOperators.Group.List.Basic
/-
What the tools should write.
-/
namespace Verif.WtTool.Spec

/-- The weight for a background and a factor. -/
noncomputable def weight (eps fac b : ℝ) : ℝ := fac / (1 + eps ^ 2 * b)

/-- The factor for backgrounds `bs` of several components, of which `b` is the smallest. -/
noncomputable def factor (eps b : ℝ) (bs : List ℝ) : ℝ :=
  (1 + eps ^ 2 * b) / (1 + eps ^ 2 * b * (bs.map fun x => (b / x) ^ 2).sum)

/-- The value at a place. -/
def nth (l : List ℝ) (i : Nat) : ℝ := l[i]?.getD 0

/-- A keyword has a value: the last one written counts. -/
def Key (keys : List (String × Val)) (name : String) (v : Val) : Prop :=
  ∃ pre post, keys = pre ++ (name, v) :: post ∧ ∀ p ∈ post, p.1 ≠ name

end Verif.WtTool.Spec
