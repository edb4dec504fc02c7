import Mathlib.Data.Real.Basic
import Mathlib.Algebra.BigOperators.Group.Finset.Basic
/-
What a binned exposure map has to give.
-/
namespace Verif.BinExp.Spec

/-- A pixel coordinate belongs to column (or row) `i`, counted from zero: its centre is `i + 1` and
it reaches half a pixel to both sides. -/
def InPixel (i : Nat) (p : ℝ) : Prop := (i : ℝ) + 1 / 2 ≤ p ∧ p < (i : ℝ) + 3 / 2

/-- A pixel coordinate is outside of `n` pixels. -/
def Outside (n : Nat) (p : ℝ) : Prop := p < 1 / 2 ∨ (n : ℝ) + 1 / 2 ≤ p

/-- The place of a value: columns, rows, energies. -/
def place (n0 n1 i j k : Nat) : Nat := i + n0 * (j + n1 * k)

/-- Position `k` is that of an energy closest to `x`. -/
def Closest (xs : List ℝ) (x : ℝ) (k : Nat) : Prop :=
  ∃ a, xs[k]? = some a ∧ ∀ b ∈ xs, |a - x| ≤ |b - x|

end Verif.BinExp.Spec
