import Mathlib.Tactic.Common

/-!
# Files that a fit leaves: types
-/

namespace Verif.OutFiles

/-- A file system: the contents of the existing files. -/
abbrev FS (α : Type) := String → Option α

/-- The parameters of gtlike which concern files, pfiles/gtlike.par. -/
structure Pars where
  clobber : Bool
  save : Bool
  srcmdl : String
  sfile : String
  results : String
  specfile : String

/-- What the analysis computes, abstractly.  `setup` is everything before the fit; `read` reads the
source model; `fit` is the fit with its test statistics; `report` and `spec` give the text of the
results and the table of the counts spectra, and whether they were completed (if not, an exception
ended them); `xml` is the fitted model.  `none` is an exception. -/
structure Engine (σ α : Type) where
  setup : Option σ
  read : σ → α → Option σ
  fit : σ → Option σ
  empty : α
  report : σ → α × Bool
  xml : σ → α
  spec : σ → α × Bool

/-- How the run ends: refused at the start, with an exception, or regularly. -/
inductive Out (σ α : Type) where
  | refused (fs : FS α)
  | failed (fs : FS α)
  | done (s : σ) (fs : FS α)

/-- The files at the end. -/
def Out.fs {σ α : Type} : Out σ α → FS α
  | .refused f => f
  | .failed f => f
  | .done _ f => f

/-- What the user writes between two fits. -/
abbrev Edit (α : Type) := List (String × α)

end Verif.OutFiles
