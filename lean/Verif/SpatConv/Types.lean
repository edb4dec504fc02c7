import Mathlib.Data.Real.Basic
/-
What the model and the specification of the maps of disks and Gaussians share.
-/
namespace Verif.SpatConv

/-- The smaller and the larger pixel size and the largest distance of a pixel to the source, in degrees. -/
structure Geom where
  cmin : ℝ
  cmax : ℝ
  far : ℝ

/-- A source: its response (profile folded with the point-spread function) at a distance, the direction of
its middle and the distance of a direction to it. -/
structure Src (D : Type) where
  resp : ℝ → ℝ
  mid : D
  angle : D → ℝ

end Verif.SpatConv
