import Mathlib.Data.Real.Basic
/-
Types shared by the model and the specification of gtfindsrc.
-/
namespace Verif.FindSrc

/-- A point that was tried: the two coordinates and the value. -/
structure Pt where
  at' : ℝ × ℝ
  value : ℝ

/-- How the tolerance of a fit is meant. -/
inductive Tol where
  | abs
  | rel

/-- The options: galactic coordinates, fit at each point, the kind of tolerance, the accuracy
in degrees and whether the target is in the source model. -/
structure Opts where
  gal : Bool
  reopt : Bool
  tol : Tol
  accuracy : ℝ
  target : Bool

/-- What gtfindsrc reports: the points tried in the order of the output file, the radius of the
error circle, the best position and the value there; and the source model it leaves: the other
sources and, if the target is in the model, its right ascension, declination and spectrum. -/
structure Out (B S : Type) where
  points : List Pt
  radius : ℝ
  best : ℝ × ℝ
  final : ℝ
  others : B
  source : Option ((ℝ × ℝ) × S)

end Verif.FindSrc
