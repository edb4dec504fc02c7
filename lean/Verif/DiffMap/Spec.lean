import Mathlib.Data.Real.Basic
import Mathlib.Algebra.BigOperators.Group.Finset.Basic
/-
Where the parts of a pixel are and what a pixel has to hold.
-/
namespace Verif.DiffMap.Spec

/-- The position of the centre of part `t` of `r` equal parts of pixel `p` (from zero) relative to the
reference pixel (from one), in pixels. -/
noncomputable def partPos (crpix : ℝ) (p r t : Nat) : ℝ := (p : ℝ) + 1 - crpix + ((2 * t + 1 : ℝ) / (2 * r) - 1 / 2)

/-- The mean over the parts of a pixel. -/
noncomputable def mean (r : Nat) (f : Nat → Nat → ℝ) : ℝ :=
  (∑ s ∈ Finset.range r, ∑ t ∈ Finset.range r, f s t) / ((r : ℝ) * r)

/-- The value for layer `k`, row `q` and column `p`. -/
def at3 (n1 n2 : Nat) (m : List ℝ) (k q p : Nat) : Option ℝ := m[p + n1 * (q + n2 * k)]?

end Verif.DiffMap.Spec
