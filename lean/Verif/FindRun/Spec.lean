import Verif.FindRun.Types
/-
What a user expects of the files of a run of `gtfindsrc`.
-/
namespace Verif.FindRun

variable {α ρ : Type}

/-- A name that stands for no file. -/
def NoFile (n : String) : Prop := n = "" ∨ n = "none"

/-- The model without one of its sources. -/
def without (m : Model α) (n : String) : Model α := fun k => if k = n then none else m k

/-- The model with one of its sources changed. -/
def with_ (m : Model α) (n : String) (a : α) : Model α := fun k => if k = n then some (.point a) else m k

/-- The files with one of them changed. -/
def written (fs : Files α ρ) (n : String) (c : Content α ρ) : Files α ρ := fun k => if k = n then some c else fs k

end Verif.FindRun
