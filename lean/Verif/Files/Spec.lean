import Verif.Files.Types
/-
What the user relies on: a map read from a file is the map that was written last.
-/
namespace Verif.Files.Spec

/-- What is really found after `new` is written over `old`: the end of a longer old map stays. -/
def overlay {α : Type} (old new : List α) : List α := new ++ old.drop new.length

/-- What is found after a history of maps. -/
def found {α : Type} (history : List (List α)) : List α := history.foldl overlay []

/-- Does the history end with a map that is at least as long as all before? -/
def Growing {α : Type} (history : List (List α)) : Prop :=
  ∀ last ∈ history.getLast?, ∀ m ∈ history, m.length ≤ last.length

/-- The plane before which a map ends: a negative number stands for all planes of the data. -/
def last (nData : Nat) (kmax : ℤ) : ℤ := if 0 ≤ kmax then kmax else nData

end Verif.Files.Spec
