import Verif.Basic
import Mathlib.Data.Real.Basic
/-
Maps of the whole sky in equal-area pixels (HEALPix): the objects shared by model and specification.
-/
namespace Verif.HpxMap

/-- What the library of pixels offers, for a number of pixels along a side of a base pixel and an order of pixels
(`true` for the nested order): the pixel of a direction, the direction of the centre of a pixel, pixels and weights
of the interpolation at a direction, and the pixels of a finer map within a pixel (finer and coarser side). -/
structure Library (δ : Type) where
  pixel : Nat → Bool → δ → Nat
  centre : Nat → Bool → Nat → δ
  weights : Nat → Bool → δ → List (Nat × ℝ)
  inner : Nat → Nat → Bool → Nat → List Nat
  /-- The largest order, the side being at most two to that power. -/
  maxOrder : Nat

/-- An image: `Healpix_Map<float>`. -/
structure Plane where
  nside : Nat
  nest : Bool
  vals : List ℝ

/-- A map, HealpixProjMap.h:118-133 and ProjMap.h: side and order of the projection, energies, one image for each energy,
integrals of the images and of the map, and the two options. -/
structure Map where
  nside : Nat
  nest : Bool
  energies : List ℝ
  planes : List Plane
  integrals : List ℝ
  total : ℝ
  interp : Bool
  enforce : Bool

/-- A file: the side and order, the columns of the table (name and values), the number of axes of the extension and the
energies of the extension of energies. -/
structure File where
  nside : Nat
  nest : Bool
  cols : List (List Char × List ℝ)
  naxis : Nat
  energies : List ℝ

end Verif.HpxMap
