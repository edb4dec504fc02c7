import Mathlib.Data.Real.Basic
/-
A response as a function of the true energy.
-/
namespace Verif.GaussPar

/-- The numbers that stand for a response: its integral, its mean energy and its width. -/
structure Params where
  norm : ℝ
  mean : ℝ
  sigma : ℝ

/-- An energy and the response there. -/
abbrev Point := ℝ × ℝ

end Verif.GaussPar
