import Mathlib.Analysis.SpecialFunctions.Log.Basic
/-
Specification of trapezoidal quadrature: the area under the polygon through the points,
segment by segment.
-/
namespace Verif.TrapQuad

/-- Sum of the areas of the trapezoids between consecutive points `(x, y)`. -/
noncomputable def trapezoid : List (ℝ × ℝ) → ℝ
  | p :: q :: rest => (p.2 + q.2) / 2 * (q.1 - p.1) + trapezoid (q :: rest)
  | _ => 0

/-- The same for `∫ y dx = ∫ x y d(log x)`, with the logarithm of `x` as abscissa. -/
noncomputable def logTrapezoid (pts : List (ℝ × ℝ)) : ℝ :=
  trapezoid (pts.map (fun p => (Real.log p.1, p.1 * p.2)))

end Verif.TrapQuad
