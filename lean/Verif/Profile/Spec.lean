import Mathlib.Algebra.Order.Field.Basic
import Mathlib.Data.Real.Basic
/-
What a table of a radial profile means.
-/
namespace Verif.Profile.Spec

/-- The points are in order. -/
def Increasing (pts : List (ℝ × ℝ)) : Prop := pts.Pairwise fun p q => p.1 < q.1

/-- The height at `t` of the straight line through two points. -/
noncomputable def line (t : ℝ) (p q : ℝ × ℝ) : ℝ :=
  ((q.1 - t) * p.2 + (t - p.1) * q.2) / (q.1 - p.1)

end Verif.Profile.Spec
