import Mathlib.Data.Real.Basic
/-
Event files and models as far as the probabilities of events go.
-/
namespace Verif.SrcProb

/-- Names of sources and columns. -/
abbrev Name := List Char

/-- Lower case. -/
def low (n : Name) : Name := n.map Char.toLower

/-- Columns by their names in lower case; `none` in a cell is a value that is not a finite number. -/
abbrev Cols := Name → Option (Nat → Option ℝ)

/-- A table of events. -/
structure EvFile where
  nrow : Nat
  /-- the event in each row -/
  ev : Nat → Nat
  cols : Cols

/-- A source: its name, and its `fluxDensity` for each event. -/
structure Src where
  name : Name
  dens : Nat → ℝ

/-- A run of the tool. -/
structure Cfg where
  /-- the sources of the model -/
  model : List Src
  /-- the sources asked for, if a list is given -/
  list : Option (List Name)
  /-- whether an event is in the region of interest of the file -/
  accept : Nat → Bool

end Verif.SrcProb
