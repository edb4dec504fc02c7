import Verif.FileKind.Types
/-
Which kind of map a file holds.
-/
namespace Verif.FileKind.Spec

/-- An image of the sky. -/
def Picture : Hdu → Prop
  | .image n => 2 ≤ n
  | .table _ => False

/-- A table of HEALPix pixels. -/
def Pixels : Hdu → Prop
  | .image _ => False
  | .table p => p = some "HEALPIX"

/-- The primary image is a map. -/
def Primary (f : File) : Prop := ∃ n, f.primary = some n ∧ 2 ≤ n

/-- The file holds HEALPix pixels in the extension, and its primary image is empty. -/
def Healpix (f : File) (e : String) : Prop :=
  (∃ n, f.primary = some n ∧ n < 2) ∧ ∃ h, f.ext e = some h ∧ Pixels h

/-- The extension holds a map of this kind. -/
def Holds (f : File) (e : String) (m : Method) : Prop :=
  ∃ h, f.ext e = some h ∧ ((Picture h ∧ m = .wcs) ∨ (Pixels h ∧ m = .hpx))

/-- A latitude is on the map: its pixel lies between the edges. -/
def Covers (a : Axis) (b : ℝ) : Prop :=
  1 / 2 ≤ a.crpix + (b - a.crval) / a.cdelt ∧ a.crpix + (b - a.crval) / a.cdelt ≤ a.n + 1 / 2

end Verif.FileKind.Spec
