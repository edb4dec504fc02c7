import Mathlib.Data.Real.Basic
import Mathlib.Algebra.BigOperators.Group.Finset.Basic
/-
What a user expects of a map with a value for each pixel.
-/
namespace Verif.Wcs.Spec

/-- The value of pixel `(i, j)`, counted from one, in plane `k`. -/
def pixel (image : List (List (List ℝ))) (k i j : Nat) : ℝ :=
  ((image.getD k []).getD (j - 1) []).getD (i - 1) 0

/-- An image of `nE` planes of `n2` rows of `n1` pixels. -/
structure Rect (image : List (List (List ℝ))) (nE n1 n2 : Nat) : Prop where
  planes : image.length = nE
  rows : ∀ plane ∈ image, plane.length = n2 ∧ ∀ row ∈ plane, row.length = n1
  pos : 0 < n1 ∧ 0 < n2

/-- The tent: one at zero, zero from distance one. -/
noncomputable def tent (t : ℝ) : ℝ := max 0 (1 - |t|)

/-- Interpolation: each pixel `(i, j)`, counted from one, counts with tents in both
coordinates. -/
noncomputable def tents (n1 n2 : Nat) (pix : Nat → Nat → ℝ) (x y : ℝ) : ℝ :=
  ∑ j ∈ Finset.range n2, ∑ i ∈ Finset.range n1, tent (x - (i + 1)) * tent (y - (j + 1)) * pix (i + 1) (j + 1)

/-- The same on a cylinder of circumference `n1`: the pixels are repeated in both directions
(once is enough for `0 ≤ x ≤ n1`). -/
noncomputable def cylinder (n1 n2 : Nat) (pix : Nat → Nat → ℝ) (x y : ℝ) : ℝ :=
  ∑ j ∈ Finset.range n2, ∑ i ∈ Finset.range n1, (tent (x - (i + 1)) + tent (x + n1 - (i + 1))) *
    tent (y - (j + 1)) * pix (i + 1) (j + 1)

/-- The position lies in the pixel. -/
def InPixel (x y : ℝ) (i j : Nat) : Prop :=
  (i : ℝ) - 1 / 2 ≤ x ∧ x < i + 1 / 2 ∧ (j : ℝ) - 1 / 2 ≤ y ∧ y < j + 1 / 2

end Verif.Wcs.Spec
