import Mathlib.Data.Real.Basic
/-
What the model and the specification of the plot of counts spectra share.
-/
namespace Verif.PlotSpec

/-- A point of a plot with an error bar. -/
structure Point where
  x : ℝ
  y : ℝ
  err : ℝ

/-- The plots: observed points, the line of each source, the line of their sum, and the residuals. -/
structure Plots where
  observed : List Point
  sources : List (List (ℝ × ℝ))
  total : List (ℝ × ℝ)
  residuals : List Point

end Verif.PlotSpec
