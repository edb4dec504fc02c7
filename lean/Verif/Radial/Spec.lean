import Mathlib.Analysis.SpecialFunctions.Trigonometric.Basic
import Mathlib.MeasureTheory.Integral.IntervalIntegral.Basic
/-
What is meant by a source of a shape seen with a response: in the plane, the response at every
distance from the point of observation, averaged over the shape.
-/
namespace Verif.Radial.Spec
open Real MeasureTheory

/-- The distance from the centre of the source of the point at distance `r` and angle `φ` from
the point of observation, which is at distance `x` from the centre (law of cosines). -/
noncomputable def distance (x r φ : ℝ) : ℝ := sqrt (x ^ 2 + r ^ 2 - 2 * x * r * cos φ)

/-- The shape seen at distance `x` from its centre with the response `fn`: the integral of the
product over the plane, in polar coordinates around the point of observation. -/
noncomputable def seen (shape fn : ℝ → ℝ) (x : ℝ) : ℝ :=
  ∫ r in Set.Ioi 0, r * fn r * ∫ φ in -π..π, shape (distance x r φ)

/-- The integral of a radial shape over the plane; `scale` converts radians. -/
noncomputable def total (shape : ℝ → ℝ) (scale : ℝ) : ℝ :=
  ∫ δ in Set.Ioi 0, 2 * π * δ * shape (scale * δ)

/-- The integral over the sphere. -/
noncomputable def totalSphere (shape : ℝ → ℝ) (scale : ℝ) : ℝ :=
  ∫ δ in (0 : ℝ)..π, 2 * π * sin δ * shape (scale * δ)

end Verif.Radial.Spec
