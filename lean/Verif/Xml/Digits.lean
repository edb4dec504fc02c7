import Mathlib.Data.Real.Basic
import Mathlib.Data.Int.Log
import Mathlib.Algebra.Order.Archimedean.Real.Basic
/-
Model of the text of a number in a model file: `addAttribute` of a double prints it into a
stream with `precision(15)`, src/SourceModelBuilder.cxx:57-65, and `std::stod` reads it,
src/SourceFactory.cxx:154-165 and src/SourceModel.cxx:110-133.

The text is modelled by the decimal number it shows, the reader by the floating point number
next to it, both as relations, so that nothing is said about how ties are broken.
-/
namespace Verif.Xml

/-- `precision(15)`, SourceModelBuilder.cxx:62. -/
def precision : ℕ := 15

/-- The weight of the last of the digits that are printed of `x`. -/
noncomputable def lastDigit (x : ℝ) : ℝ := (10 : ℝ) ^ (Int.log 10 |x| - ((precision : ℤ) - 1))

/-- `ss << value`, SourceModelBuilder.cxx:63: `y` is a decimal number next to `x` with the
digits of the precision. -/
def Printed (x y : ℝ) : Prop :=
  (∃ k : ℤ, y = k * lastDigit x) ∧ |x - y| ≤ lastDigit x / 2

/-- The floating point numbers of 53 bits (IEEE double precision, without an upper end). -/
def Double (d : ℝ) : Prop := ∃ m q : ℤ, d = m * (2 : ℝ) ^ q ∧ |m| < 2 ^ 53 ∧ -1074 ≤ q

/-- `std::stod`: the floating point number next to the number in the text. -/
def Parsed (y d : ℝ) : Prop := Double d ∧ ∀ d', Double d' → |y - d| ≤ |y - d'|

end Verif.Xml
