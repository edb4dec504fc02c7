import Verif.HpxIo.Types
/-
What a user expects of HEALPix counts maps in files.
-/
namespace Verif.HpxIo

variable {β : Type}

/-- The counts of a map: for each energy bin a list with the counts of each pixel. -/
abbrev Planes (β : Type) := List (List β)

/-- There are `nE` energy bins and `nPix` pixels. -/
def Shape (nPix nE : Nat) (p : Planes β) : Prop := p.length = nE ∧ ∀ l ∈ p, l.length = nPix

/-- A column with counts: its name, in any case, begins with `channel`. -/
def IsChannel (n : Name) : Prop := ∃ r, n.map Char.toLower = ['c', 'h', 'a', 'n', 'n', 'e', 'l'] ++ r

end Verif.HpxIo
