import Verif.MatVec.Types
import Mathlib.Analysis.SpecialFunctions.Log.Basic
/-
Specification, independent of the model.
-/
namespace Verif.MatVec.Spec
open Vec

/-- The list holds the matrix row by row. -/
def ByRows (l : List ℝ) (n : Nat) (f : Nat → Nat → ℝ) : Prop := l.length = n * n ∧ ∀ i j, i < n → j < n → val l (i * n + j) = f i j

/-- A decomposition into singular values. -/
structure IsSvd {n : Nat} (a u : Mat n) (s : Fin n → ℝ) (v : Mat n) : Prop where
  eq : a = u * Matrix.diagonal s * v.transpose
  u : u.transpose * u = 1
  v : v.transpose * v = 1
  nonneg : ∀ i, 0 ≤ s i
  sorted : ∀ i j, i ≤ j → s j ≤ s i

/-- The square of the length of a vector. -/
def lenSq {n : Nat} (x : Fin n → ℝ) : ℝ := dotProduct x x

/-- The conditions of Moore and Penrose. -/
structure Pseudo {n : Nat} (a x : Mat n) : Prop where
  axa : a * x * a = a
  xax : x * a * x = x
  ax : (a * x).transpose = a * x
  xa : (x * a).transpose = x * a

/-- The counts in an energy bin, with the trapezoidal rule in the logarithm of the energy: `f` is the spectrum at the edges, `w`
the source map. -/
noncomputable def counts (e1 e2 f1 f2 w1 w2 : ℝ) : ℝ := (f1 * w1 * e1 + f2 * w2 * e2) / 2 * Real.log (e2 / e1)

end Verif.MatVec.Spec
