import Mathlib.Data.List.Forall2
/-
Specification of an N-dimensional array: index tuples and the mixed-radix position of a
cell.
-/
namespace Verif.HistND

/-- A tuple with one index per axis, each smaller than the number of bins of its axis. -/
def InRange (dims iv : List Nat) : Prop := List.Forall₂ (· < ·) iv dims

/-- Position of the cell of a tuple: the first index varies fastest. -/
def cell : List Nat → List Nat → Nat
  | n :: ns, i :: is => i + n * cell ns is
  | _, _ => 0

/-- The tuples `s` and `t` agree except possibly on axis `idim`. -/
def AgreeOff (idim : Nat) (s t : List Nat) : Prop :=
  s.length = t.length ∧ ∀ j, j ≠ idim → s[j]? = t[j]?

end Verif.HistND
