import Mathlib.Data.Real.Basic
/-
Types shared by the model and the specification of counts maps.
-/
namespace Verif.CntMap

/-- An energy bin, in MeV: from `lo` up to, but without, `hi`. -/
structure Interval where
  lo : ℝ
  hi : ℝ

/-- A row of an event table: the values of its columns. -/
abbrev Event := String → ℝ

/-- How the energy bins are given to the constructors. -/
inductive Bins where
  | log (emin emax : ℝ) (n : Nat)
  | edges (es : List ℝ)
  | pairs (emins emaxs : List ℝ)

/-- Sky coordinates of a map. -/
structure Geom where
  proj : String
  crpix : ℝ × ℝ
  crval : ℝ × ℝ
  cdelt : ℝ × ℝ
  rot : ℝ
  gal : Bool

/-- A file with a counts map: numbers of pixels and planes, image, table of energy bins (keV),
sky coordinates; first and last part of the coordinate name; step of the third axis. -/
structure File where
  nx : Nat
  ny : Nat
  nz : Nat
  image : List ℝ
  ebounds : List (ℝ × ℝ)
  ctype : String × String
  crpix : ℝ × ℝ
  crval : ℝ × ℝ
  cdelt : ℝ × ℝ
  crota : ℝ
  cdelt3 : Option ℝ

end Verif.CntMap
