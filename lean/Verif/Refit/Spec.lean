import Mathlib.Tactic.Common
import Mathlib.Data.Nat.Notation

/-!
# The question for a further fit: what is expected

Independent of the program.  The user answers line by line.
-/

namespace Verif.Refit.Spec

/-- The lines as typed. -/
def typed (lines : List (List Char)) : List Char := (lines.map (· ++ ['\n'])).flatten

/-- A line is what is typed before the return key. -/
def IsLine (l : List Char) : Prop := '\n' ∉ l

/-- Yes: return alone, or `y`. -/
def Yes (l : List Char) : Prop := l = [] ∨ l = ['y']

end Verif.Refit.Spec
