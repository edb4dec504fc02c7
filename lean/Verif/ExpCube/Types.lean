import Mathlib.Data.Real.Basic
/-
Types shared by the model and the specification of gtexpcube2.
-/
namespace Verif.ExpCube

/-- Geometry of a map in a conventional projection. -/
structure Sky where
  proj : String
  crpix : ℝ × ℝ
  crval : ℝ × ℝ
  cdelt : ℝ × ℝ
  rot : ℝ
  gal : Bool
  n0 : Nat
  n1 : Nat

/-- Geometry of a HEALPix map. -/
structure Hpx where
  nside : Nat
  ring : Bool
  gal : Bool

/-- An energy bin of a file, in keV. -/
structure Row where
  emin : ℝ
  emax : ℝ

/-- A file with a counts map: geometry and energy bins; `other` if the projection is not known. -/
inductive CountsFile where
  | wcs (sky : Sky) (bins : List Row)
  | hpx (geom : Hpx) (bins : List Row)
  | other

/-- The parameter `cmap`. -/
inductive Cmap where
  /-- `none` -/
  | noMap
  /-- `hpx` -/
  | noHpx
  | file (name : String)

/-- The parameter `ebinalg` with those it needs; `none` is `INDEF`, or `NONE` for the file. -/
inductive Ebin where
  | file (name : Option String)
  | log (emin emax : Option ℝ) (num : Option Nat)

/-- Parameters of gtexpcube2; `none` is `INDEF`. -/
structure Pars where
  cmap : Cmap
  nxpix : Option Nat
  nypix : Option Nat
  binsz : Option ℝ
  xref : Option ℝ
  yref : Option ℝ
  axisrot : ℝ
  proj : String
  gal : Bool
  order : Option Nat
  ring : Bool
  ebin : Ebin
  edisp : Int
  center : Bool

/-- The exposure map that is computed: its geometry and energies. -/
inductive Out where
  | wcs (sky : Sky) (energies : List ℝ)
  | hpx (geom : Hpx) (energies : List ℝ)

/-- The files there are: counts maps and energy bins. -/
structure Disk where
  cmap : String → Option CountsFile
  bins : String → Option (List Row)

end Verif.ExpCube
