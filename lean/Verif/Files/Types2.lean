import Mathlib.Data.Real.Basic
/-
The tables of parameters and of the energy response.
-/
namespace Verif.Files

/-- Names are character strings. -/
abbrev Name := List Char

/-- A parameter. -/
structure Par where
  name : Name
  value : ℝ
  scale : ℝ
  error : ℝ
  free : Bool

/-- A function with its name and its parameters. -/
structure Func where
  name : Name
  pars : List Par

/-- A source with its functions under their keys, among them the spectrum. -/
structure Src where
  name : Name
  spectrum : Func
  others : List Func

/-- A row of the table of parameters. -/
structure Row where
  src : Name
  func : Name
  par : Name
  value : ℝ
  scale : ℝ
  error : ℝ
  free : Bool

/-- A row of the table of the energy response: limits of the true energy, responses. -/
structure DrmRow where
  lo : ℝ
  hi : ℝ
  matrix : List ℝ

end Verif.Files
