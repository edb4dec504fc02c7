import Verif.Basic
import Verif.Vec
import Mathlib.Data.Matrix.Mul
import Mathlib.LinearAlgebra.Matrix.NonsingularInverse
import Mathlib.Analysis.SpecialFunctions.Sqrt
/-
Types of matrices and vectors of fits, shared by the model and the specification.
-/
namespace Verif.MatVec

/-- A symmetric matrix as it is stored: the elements `(i, j)` with `j ≤ i`. -/
structure Sym where
  n : Nat
  low : Nat → Nat → ℝ

/-- The element `(i, j)`. -/
def Sym.get (m : Sym) (i j : Nat) : ℝ := m.low (max i j) (min i j)

/-- Square matrices. -/
abbrev Mat (n : Nat) := Matrix (Fin n) (Fin n) ℝ

end Verif.MatVec
