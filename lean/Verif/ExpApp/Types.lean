import Verif.Basic
import Mathlib.Data.Real.Basic
/-
Types of the program that makes exposure maps, shared by the model and the specification.
-/
namespace Verif.ExpApp

/-- A good time interval: start and stop. -/
abbrev Gti := ℝ × ℝ

/-- What the program is given: the radius of the source region, the radius of the region of the events, the good times of the events,
and those of the livetime cube if there is one. -/
structure Input where
  srcRadius : ℝ
  roiRadius : ℝ
  events : List Gti
  cube : Option (List Gti)

/-- What it leaves: whether the user was warned, the radius that the map was made with, the times in the header, and the good times. -/
structure Output where
  warned : Bool
  radius : ℝ
  tstart : ℝ
  tstop : ℝ
  gtis : List Gti

end Verif.ExpApp
