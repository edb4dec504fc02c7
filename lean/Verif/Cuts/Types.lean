import Mathlib.Data.Real.Basic
/-
Types shared by the model and the specification of the checks of input files.
-/
namespace Verif.Cuts

/-- A name of a file, an extension or a column. -/
abbrev Name := List Char

/-- One selection recorded in a file: a closed range of a column, a bit mask of a column, the
good time intervals, a version, or any other selection. -/
inductive Cut where
  | range (col : Name) (lo hi : ℝ)
  | bits (col : Name) (mask : Nat)
  | gti (iv : List (ℝ × ℝ))
  | version (col : Name) (value : Name)
  | other (text : Name)

/-- What the package dataSubselector supplies: the selections in a set of files (`skip` leaves
out the event class), the comparison of two sets of selections with and without good time
intervals, and the comparison of two lists of good time intervals. -/
structure Env where
  read : List Name → Name → Bool → List Cut
  same : List Cut → List Cut → Bool
  sameBut : List Cut → List Cut → Bool
  sameGti : List (ℝ × ℝ) → List (ℝ × ℝ) → Bool

/-- A message to the user. -/
inductive Warn where
  /-- the good time intervals of two files differ -/
  | gtis
  /-- the good time intervals differ; sums of the differences of the starts and of the stops -/
  | times (starts stops : ℝ)

/-- Exposure of one direction at one energy: a value, the error for directions outside of the
map, or any other error. -/
inductive Look where
  | value (x : ℝ)
  | outside
  | fails

/-- The files gtlike checks: events, exposure map and livetime cube (`none` if not given). -/
structure Inputs where
  events : List Name
  table : Name
  expMap : Option Name
  expCube : Option Name
  skipClass : Bool

end Verif.Cuts
