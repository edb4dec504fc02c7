import Verif.Vec
import Mathlib.Analysis.SpecialFunctions.Sqrt
/-
Images, as lists of rows.
-/
namespace Verif.Convol
open Vec

/-- An image: rows of pixels. -/
abbrev Image := List (List ℝ)

/-- Pixel `i` of row `j`, 0 outside the image. -/
noncomputable def pix (m : Image) (j i : Nat) : ℝ := val (m[j]?.getD []) i

/-- An image of `ny` rows of `nx` pixels. -/
def Rect (m : Image) (ny nx : Nat) : Prop := m.length = ny ∧ ∀ r ∈ m, r.length = nx

/-- What the convolution of a map uses of its projection and of the point spread function. -/
structure Sky where
  /-- the pixel (column, row, from 0) of the map has a direction -/
  inside : Nat → Nat → Bool
  /-- exposure in the direction of the pixel, if there is an exposure -/
  expo : Option (Nat → Nat → ℝ)
  /-- angle between the reference direction and pixel (column, row) of an image with so many columns and rows and the reference
  direction in the middle; `none` for pixels without direction -/
  angle : Nat → Nat → Nat → Option ℝ
  /-- the point spread function -/
  psf : ℝ → ℝ

end Verif.Convol
