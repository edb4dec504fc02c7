import Mathlib.MeasureTheory.Integral.IntervalIntegral.Basic
import Mathlib.Analysis.SpecialFunctions.Trigonometric.Basic
/-
What a point-spread function given on a grid of angles means: counts per angle,
interpolated between the angles, and the fraction of them inside a cone.
-/
namespace Verif.MeanPsf.Spec
open Real

/-- Radians. -/
noncomputable def rad (deg : ℝ) : ℝ := deg * π / 180

/-- Element `i` of a list. -/
def el (l : List ℝ) (i : Nat) : ℝ := l.getD i 0

/-- A grid of angles in degrees: increasing, at least two, from zero or above to at most 180. -/
structure Grid (seps : List ℝ) : Prop where
  inc : seps.Pairwise (· < ·)
  two : 2 ≤ seps.length
  lo : 0 ≤ el seps 0
  hi : el seps (seps.length - 1) ≤ 180

/-- The fraction of the counts per unit of angle at angle number `j`, for a density `p`
per solid angle. -/
noncomputable def ring (seps : List ℝ) (p : Nat → ℝ) (j : Nat) : ℝ := 2 * π * p j * sin (rad (el seps j))

/-- `g` runs on straight lines through the points `(θ j, y j)`. -/
def Polygon (seps : List ℝ) (y : Nat → ℝ) (g : ℝ → ℝ) : Prop :=
  ∀ j, j + 1 < seps.length → ∀ t ∈ Set.Icc (rad (el seps j)) (rad (el seps (j + 1))),
    g t = y j + (y (j + 1) - y j) * ((t - rad (el seps j)) / (rad (el seps (j + 1)) - rad (el seps j)))

/-- The area under `g` from the first angle to the angle `a` (in degrees). -/
noncomputable def area (seps : List ℝ) (g : ℝ → ℝ) (a : ℝ) : ℝ := ∫ t in rad (el seps 0)..rad a, g t

/-- The area under `g` over all angles of the grid. -/
noncomputable def whole (seps : List ℝ) (g : ℝ → ℝ) : ℝ := area seps g (el seps (seps.length - 1))

/-- The value at `e` of the straight line from `(e0, f0)` to `(e1, f1)`. -/
noncomputable def between (e0 e1 f0 f1 e : ℝ) : ℝ := f0 + (f1 - f0) * ((e - e0) / (e1 - e0))

end Verif.MeanPsf.Spec
