import Verif.SkyInt.Spec
import Verif.SkyInt.Limits
/-
Regions of the sky.
-/
namespace Verif.SkyInt.Spec
open Real

/-- A pixel on the border of a map. -/
def Border (n1 n2 i j : ℕ) : Prop :=
  1 ≤ i ∧ i ≤ n1 ∧ 1 ≤ j ∧ j ≤ n2 ∧ (i = 1 ∨ i = n1 ∨ j = 1 ∨ j = n2)

/-- The angle is between the limits, or becomes so by full turns. -/
def Between (phi lo hi : ℝ) : Prop := ∃ k : ℤ, lo ≤ phi + k * (2 * π) ∧ phi + k * (2 * π) ≤ hi

end Verif.SkyInt.Spec
