import Verif.SpatConv.Types
import Mathlib.Algebra.Order.Group.Abs
/-
The counts a user expects in the pixels of the map of a disk or a Gaussian.
-/
namespace Verif.SpatConv.Spec

variable {D : Type}

/-- A geometry of a map: pixels have a size, distances are not negative. -/
def Valid (g : Geom) : Prop := 0 < g.cmin ∧ g.cmin ≤ g.cmax ∧ 0 ≤ g.far

/-- The response changes by at most `L` per degree. -/
def Smooth (f : ℝ → ℝ) (L : ℝ) : Prop := 0 ≤ L ∧ ∀ a b, 0 ≤ a → 0 ≤ b → |f a - f b| ≤ L * |a - b|

/-- The distance of every pixel on the sky is one between `0` and the largest. -/
def Within (g : Geom) (s : Src D) (d : D) : Prop := 0 ≤ s.angle d ∧ s.angle d ≤ g.far

/-- The counts: response at the pixel times exposure at the pixel. -/
def Counts (s : Src D) (expo : D → ℝ) (d : D) (v : ℝ) : Prop := v = s.resp (s.angle d) * expo d

/-- The counts up to an error, with the exposure `x`. -/
def Close (s : Src D) (x : ℝ) (d : D) (err v : ℝ) : Prop := |v - s.resp (s.angle d) * x| ≤ err * |x|

end Verif.SpatConv.Spec
