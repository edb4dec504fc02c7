import Mathlib.Algebra.BigOperators.Group.Finset.Basic
import Mathlib.Algebra.BigOperators.Group.Finset.Piecewise
import Mathlib.Analysis.SpecialFunctions.Log.Basic
/-
Specification of the integrals of maps and of coarser maps.
-/
namespace Verif.MapInt.Spec
open scoped BigOperators

/-- The pixel in column `i` of row `j` of a plane; zero where there is none. -/
def pix (p : List (List ℝ)) (j i : Nat) : ℝ := ((p[j]?).getD [])[i]?.getD 0

/-- A plane has `n2` rows of `n1` pixels. -/
def Shape (p : List (List ℝ)) (n1 n2 : Nat) : Prop := p.length = n2 ∧ ∀ row ∈ p, row.length = n1

/-- An element of a vector; zero where there is none. -/
def el (l : List ℝ) (k : Nat) : ℝ := l[k]?.getD 0

/-- The integral of a plane for given solid angles, `w i j` being that of column `i` and row
`j`. -/
noncomputable def integral (w : Nat → Nat → ℝ) (p : List (List ℝ)) (n1 n2 : Nat) : ℝ :=
  ∑ j ∈ Finset.range n2, ∑ i ∈ Finset.range n1, w i j * pix p j i

/-- The trapezoidal rule in the logarithm of the energy for `n` intervals, the integrand with
respect to it being `E F`. -/
noncomputable def trapezoid (E F : Nat → ℝ) (n : Nat) : ℝ :=
  ∑ k ∈ Finset.range n, (E (k + 1) * F (k + 1) + E k * F k) / 2 * (Real.log (E (k + 1)) - Real.log (E k))

/-- The sum over the block of `f` times `f` pixels with the numbers `ii` and `jj`; blocks at the
far edges may be smaller. -/
noncomputable def block (g : Nat → Nat → ℝ) (f n1 n2 ii jj : Nat) : ℝ :=
  ∑ i ∈ (Finset.range n1).filter (fun i => ii * f ≤ i ∧ i < (ii + 1) * f),
    ∑ j ∈ (Finset.range n2).filter (fun j => jj * f ≤ j ∧ j < (jj + 1) * f), g i j

end Verif.MapInt.Spec
