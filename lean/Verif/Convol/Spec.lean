import Verif.Convol.Types
import Mathlib.Algebra.BigOperators.Group.Finset.Basic
/-
What a convolution of images is.
-/
namespace Verif.Convol.Spec
open Finset

/-- The middle of `n` pixels (the left one of the two in the middle of an even number). -/
def mid (n : Nat) : Nat := (n - 1) / 2

/-- Pixel (row `i`, column `j`) of the convolution of an image of `ny` rows of `nx` pixels with a kernel of `py` rows of `px` pixels:
every pixel of the image is spread like the kernel, the middle of which falls on the pixel; what falls outside
is lost. -/
noncomputable def conv (s k : Image) (ny nx py px i j : Nat) : ℝ :=
  ∑ p ∈ range ny, ∑ q ∈ range nx, ∑ r ∈ range py, ∑ u ∈ range px,
    if p + r = i + mid py ∧ q + u = j + mid px then pix s p q * pix k r u else 0

/-- The sum of an image. -/
noncomputable def total (m : Image) (ny nx : Nat) : ℝ := ∑ p ∈ range ny, ∑ q ∈ range nx, pix m p q

/-- Counts in pixel (row `j`, column `i`): intensity times exposure, 0 where there is no direction. -/
noncomputable def counts (sky : Sky) (m : Image) (j i : Nat) : ℝ :=
  if sky.inside i j then pix m j i * ((sky.expo.map fun e => e i j).getD 1) else 0

/-- Number of rows and columns of the image of the point spread function: the largest odd number that is not larger than the map. -/
def odd (naxis1 naxis2 : Nat) : Nat := if min naxis1 naxis2 % 2 = 0 then min naxis1 naxis2 - 1 else min naxis1 naxis2

/-- Image of the point spread function. -/
noncomputable def psfPix (sky : Sky) (n j i : Nat) : ℝ := ((sky.angle n i j).map sky.psf).getD 0

/-- Pixel (row `j`, column `i`) of the convolved map of `n2` rows of `n1` pixels: counts are spread like the
point spread function, normalized to one. -/
noncomputable def spread (sky : Sky) (m : Image) (n1 n2 j i : Nat) : ℝ :=
  ∑ p ∈ range n2, ∑ q ∈ range n1, ∑ r ∈ range (odd n1 n2), ∑ u ∈ range (odd n1 n2),
    if p + r = j + mid (odd n1 n2) ∧ q + u = i + mid (odd n1 n2) then
      counts sky m p q * (psfPix sky (odd n1 n2) r u / ∑ a ∈ range (odd n1 n2), ∑ b ∈ range (odd n1 n2), psfPix sky (odd n1 n2) a b)
    else 0

end Verif.Convol.Spec
