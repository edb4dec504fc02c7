import Mathlib.Data.Real.Basic
/-
Files with livetime cubes.
-/
namespace Verif.LtSum

/-- One of the two tables of a livetime cube. -/
structure Tab where
  /-- column `COSBINS`: for each pixel the livetimes in bins of the inclination -/
  rows : List (List ℝ)
  tstart : ℝ
  tstop : ℝ
  /-- keyword `ZENMAX`, if present -/
  zenmax : Option ℝ

/-- A file: the extension `CTHETABOUNDS` as the sequence of its limits, and the two tables. -/
structure LtFile where
  bounds : List ℝ
  main : Tab
  weighted : Tab

/-- Files by name. -/
abbrev FS := Nat → Option LtFile

/-- The parameters of a run. -/
structure Call where
  list : List Nat
  out : Nat
  clobber : Bool

end Verif.LtSum
