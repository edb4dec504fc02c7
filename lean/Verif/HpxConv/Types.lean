import Verif.HpxMap.Types
/-
Convolution of maps in equal-area pixels: the objects shared by model and specification.
-/
namespace Verif.HpxConv

/-- What the library offers for the convolution.  Pixels are in the order of rings unless said otherwise.
`parent n nest j`: the pixel (in the given order) of a map of side `n` that contains pixel `j` of the map of twice the side;
`swap n i`: the number in the nested order; `rings n`: first pixel, number of pixels and polar angle (in radians) of the rings
from the pole; `theta order i`: polar angle in degrees of a pixel in nested order; `transform n f p`: the map from the
product of the harmonic coefficients of the map `f` and of `p`. -/
structure Tools where
  parent : Nat → Bool → Nat → Nat
  swap : Nat → Nat → Nat
  rings : Nat → List (Nat × Nat × ℝ)
  theta : Nat → Nat → ℝ
  maxOrder : Nat
  transform : Nat → List ℝ → List ℝ → List ℝ

/-- A point spread function at one energy: value and integral as functions of the angle in degrees, and the radius in
degrees that contains a fraction. -/
structure Psf where
  value : ℝ → ℝ
  integral : ℝ → ℝ
  radius : ℝ → ℝ

end Verif.HpxConv
