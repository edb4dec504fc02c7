import Mathlib.Data.Real.Basic
/-
Event files with responses to diffuse components, and a run of `gtdiffrsp`.
-/
namespace Verif.DiffRsp

/-- Names are character strings. -/
abbrev Name := List Char

/-- The name of an unused column. -/
def noName : Name := "NONE".toList

/-- An event: which one it is and its class. -/
structure Ev where
  id : Nat
  cls : Nat

/-- The columns for responses, by number; a column has a value in each row. -/
abbrev Cols := Nat → Option (Nat → ℝ)

/-- An event file: the values of the keywords `DIFRSP0`, `DIFRSP1`, … (`NDIFRSP` of them), the columns
of these names, the number of rows and the event in each row. -/
structure EvFile where
  keys : List Name
  cols : Cols
  nrow : Nat
  ev : Nat → Ev

/-- A diffuse source: its name and its response to each event. -/
structure Src where
  name : Name
  resp : Nat → ℝ

/-- What the user gives to `gtdiffrsp`: name of the response functions, the diffuse sources of the
model, `clobber`; whether the files have no `PASS_VER`; `evclsmin` and `evclass` (`none` for INDEF). -/
structure Cfg where
  irf : Name
  srcs : List Src
  clobber : Bool
  old : Bool
  clsmin : Nat
  cls : Option Nat

end Verif.DiffRsp
