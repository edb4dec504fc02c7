import Mathlib.Tactic.Common
import Verif.DiffHdr.Types
/-
What a user expects of `gtdiffrsp` before it computes responses.
-/
namespace Verif.DiffHdr

variable {β : Type}

/-- The name says that the file is compressed. -/
def Compressed (s : Name) : Prop := (∃ p, s = p ++ ['.', 'g', 'z']) ∨ ∃ p, s = p ++ ['.', 'Z']

/-- The endings occur nowhere but at the end. -/
def OnlyAtEnd (s : Name) : Prop :=
  (∀ p q, s = p ++ ['.', 'g', 'z'] ++ q → q = []) ∧ ∀ p q, s = p ++ ['.', 'Z'] ++ q → q = []

/-- The version of a file; `NONE` if it has none. -/
def version (f : File β) : Name := f.pass.getD ['N', 'O', 'N', 'E']

/-- The name of a column with responses in the old form: response functions, two underscores or
colons, source. -/
def OldName (n : Name) : Prop := (∃ p q, n = p ++ ['_', '_'] ++ q) ∨ ∃ p q, n = p ++ [':', ':'] ++ q

/-- In the old form the responses of a component are in the column of its name. -/
def InOldForm (f : File β) (n : Name) (v : β) : Prop := OldName n ∧ (Col.word n, v) ∈ f.cols

/-- In the new form they are in the column `DIFRSP<i>` if the keyword `DIFRSP<i>` has the name,
where `i` is less than `NDIFRSP`. -/
def InNewForm (f : File β) (n : Name) (v : β) : Prop :=
  ∃ k i : Nat, f.ndif = some k ∧ i < k ∧ f.label i = some n ∧ (Col.difrsp i, v) ∈ f.cols

/-- A file of the old form: no keyword about responses, and no column of that name. -/
def Old (f : File β) : Prop := f.ndif = none ∧ (∀ i, f.label i = none) ∧ ∀ i v, (Col.difrsp i, v) ∉ f.cols

end Verif.DiffHdr
