import Mathlib.Data.Real.Basic
/-
Types of the model of test sources that are moved.
-/
namespace Verif.Shift

/-- The model of a test source at its reference position: the image of the first energy bin row after row, then
that of the second, and so on; its size; and the reference position in pixels. -/
structure Cache where
  nx : Nat
  ny : Nat
  ne : Nat
  ref : List ℝ
  refPixel : ℝ × ℝ

end Verif.Shift
