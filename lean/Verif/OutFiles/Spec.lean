import Verif.OutFiles.Types

/-!
# Files that a fit leaves: what is expected

Independent of the program.
-/

namespace Verif.OutFiles.Spec

variable {σ α : Type}

/-- The files of the run that are outputs by their parameters. -/
def IsOutput (p : Pars) (n : String) : Prop :=
  n = p.results ∨ n = p.specfile ∨ (n = p.sfile ∧ p.sfile ≠ "none")

/-- The user writes the file at some time. -/
def UserWrites (edits : List (Edit α)) (n : String) : Prop := ∃ e ∈ edits, ∃ c, (n, c) ∈ e

end Verif.OutFiles.Spec
