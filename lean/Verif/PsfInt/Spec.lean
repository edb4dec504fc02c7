import Mathlib.Analysis.SpecialFunctions.Trigonometric.Basic
import Mathlib.Algebra.BigOperators.Group.Finset.Basic
/-
What the estimate of the point-spread function in a pixel has to be.
-/
namespace Verif.PsfInt.Spec
open Real

/-- A table with `n2` rows and `n1` columns that holds `Z row column`. -/
def IsTable (z : List (List ℝ)) (n2 n1 : Nat) (Z : Nat → Nat → ℝ) : Prop :=
  z.length = n2 ∧ ∀ i, i < n2 → ∃ row, z[i]? = some row ∧ row.length = n1 ∧ ∀ j, j < n1 → row[j]? = some (Z i j)

/-- Linear interpolation in both directions between the corners of a cell. -/
def lerp2 (u v a b c d : ℝ) : ℝ :=
  let lower := a + v * (b - a)
  let upper := c + v * (d - c)
  lower + u * (upper - lower)

/-- The centre of the `i`-th of `n` equal parts of the pixel around `c`. -/
noncomputable def centre (c : ℝ) (n i : Nat) : ℝ := c + ((2 * i + 1 : ℝ) / (2 * n) - 1 / 2)

/-- The mean over the parts of the pixel. -/
noncomputable def mean2 (n : Nat) (f : Nat → Nat → ℝ) : ℝ :=
  (∑ i ∈ Finset.range n, ∑ j ∈ Finset.range n, f i j) / (n : ℝ) ^ 2

/-- The solid angle of the cone around the source with the given radius in degrees. -/
noncomputable def cone (theta : ℝ) : ℝ := 2 * π * (1 - cos (theta * π / 180))

end Verif.PsfInt.Spec
