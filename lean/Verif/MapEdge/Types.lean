import Mathlib.Data.Real.Basic
/-
What the model and the specification of the edge of a counts map share.
-/
namespace Verif.MapEdge

/-- A position in a map, in pixels: the first pixel is from `1/2` to `3/2`. -/
structure Pos where
  x : ℝ
  y : ℝ

end Verif.MapEdge
