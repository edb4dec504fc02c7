import Mathlib.Data.Real.Basic
/-
Types shared by the model and the specification of tables of counts spectra.
-/
namespace Verif.CountSpec

abbrev Name := List Char

/-- The kinds of sources. -/
inductive Kind where
  | point
  | diffuse
  | composite
  deriving DecidableEq

/-- A source: expected counts and flux between two energies. -/
structure Src where
  name : Name
  kind : Kind
  npred : ℝ → ℝ → ℝ
  flux : ℝ → ℝ → ℝ

/-- What a binned likelihood supplies: its energies, the counts of the map per energy bin, and
the model counts of a source per energy bin. -/
structure Bins where
  energies : List ℝ
  counts : List ℝ
  model : Name → List ℝ

/-- A likelihood: its sources, the energies of its events, and the bins if it is binned. -/
structure Like where
  srcs : List Src
  events : List ℝ
  bins : Option Bins

/-- A table: name of the extension, names of the columns, rows. -/
structure Table where
  ext : Name
  cols : List Name
  rows : List (List ℝ)

end Verif.CountSpec
