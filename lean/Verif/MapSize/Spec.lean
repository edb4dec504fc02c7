import Verif.MapSize.Types
/-
What is expected of the sizes of maps, stated without the program.
-/
namespace Verif.MapSize.Spec
open Verif.MapSize

/-- Every pixel of the map has its centre within the radius. -/
def PixelsWithin (sep : Dir → ℝ) (c : Chart) (radius : ℝ) : Prop :=
  ∀ i j : Nat, 1 ≤ i → i ≤ c.n1 → 1 ≤ j → j ≤ c.n2 → ∀ d, c.dir i j = some d → sep d ≤ radius

/-- The projection depends on the distance from the reference point only: the separation is a function of the distance in
the plane, in steps of `a` and `b`, that does not decrease. -/
structure Zenithal (sep : Dir → ℝ) (c : Chart) (x0 y0 a b : ℝ) (g : ℝ → ℝ) : Prop where
  everywhere : ∀ x y, ∃ d, c.dir x y = some d ∧ sep d = g ((a * (x - x0)) ^ 2 + (b * (y - y0)) ^ 2)
  mono : ∀ s t, 0 ≤ s → s ≤ t → g s ≤ g t

/-- A position is on a map of `n` times `n` pixels, whose centres are at whole numbers from one. -/
def OnMap (n : Nat) (p : ℝ × ℝ) : Prop := 1 / 2 ≤ p.1 ∧ p.1 ≤ n + 1 / 2 ∧ 1 / 2 ≤ p.2 ∧ p.2 ≤ n + 1 / 2

end Verif.MapSize.Spec
