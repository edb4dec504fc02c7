import Mathlib.Data.Real.Basic
/-
Types of the model of HEALPix exposure maps.
-/
namespace Verif.HpxExp

/-- Parameters of a HEALPix projection. -/
structure Geom where
  nside : Nat
  /-- ring ordering, otherwise nested -/
  ring : Bool
  gal : Bool

/-- A HEALPix projection: number of pixels, directions of their centres, pixel of a direction. -/
structure Sky (D : Type) where
  npix : Nat
  centre : Nat → D
  pix : D → Int

/-- Parameters of the application. -/
structure Pars where
  coordsys : String
  order : Nat
  scheme : String

/-- An exposure file: projection, number of rows and columns of the table of exposures, table of
energies. -/
structure File where
  geom : Geom
  nrow : Nat
  columns : List (List Char × List ℝ)
  energies : List ℝ

end Verif.HpxExp
