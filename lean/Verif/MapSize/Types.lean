import Verif.Basic
import Mathlib.Data.Real.Basic
/-
Types for the sizes of maps of the sky and for what is chosen by them.
-/
namespace Verif.MapSize

/-- A direction: longitude and latitude in degrees. -/
abbrev Dir := ℝ × ℝ

/-- A map in the plane as far as its extent matters: the direction of a position in pixels (nothing outside of the
projection), and the numbers of pixels. -/
structure Chart where
  dir : ℝ → ℝ → Option Dir
  n1 : Nat
  n2 : Nat

/-- How the map of counts of a diffuse source is made. -/
inductive Method
  | healpix
  | sparse (radius : ℝ)
  | part (radius : ℝ)

/-- A counts map in healpix pixels as far as its extent matters: the radius that it keeps (nothing: never set) and the
listed pixels. -/
structure Hpx where
  radius : Option ℝ
  pixels : List Nat

end Verif.MapSize
