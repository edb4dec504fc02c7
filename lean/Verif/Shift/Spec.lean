import Verif.Shift.Types
import Mathlib.Algebra.BigOperators.Group.Finset.Basic
/-
What it means to move the image of a source by whole pixels.
-/
namespace Verif.Shift.Spec

/-- A value of an image: column, row, energy bin. -/
def pixel (nx ny : Nat) (l : List ℝ) (x y e : Nat) : ℝ := (l[(e * ny + y) * nx + x]?).getD 0

/-- The whole number next to a number, of two the one next to zero. -/
def Nearest (d : ℝ) (k : ℤ) : Prop := |(k : ℝ) - d| ≤ 1 / 2 ∧ ∀ k' : ℤ, |(k' : ℝ) - d| ≤ 1 / 2 → |k| ≤ |k'|

/-- The image moved by `kx` columns and `ky` rows; where there was nothing it has a small number. -/
noncomputable def moved (nx ny : Nat) (ref : List ℝ) (kx ky : ℤ) (x y e : Nat) : ℝ :=
  if (0 ≤ (x : ℤ) - kx ∧ (x : ℤ) - kx < nx) ∧ (0 ≤ (y : ℤ) - ky ∧ (y : ℤ) - ky < ny) then
    pixel nx ny ref ((x : ℤ) - kx).toNat ((y : ℤ) - ky).toNat e
  else 1e-9

/-- The sum of the image of one energy bin. -/
noncomputable def total (nx ny : Nat) (l : List ℝ) (e : Nat) : ℝ :=
  ∑ y ∈ Finset.range ny, ∑ x ∈ Finset.range nx, pixel nx ny l x y e

/-- The pixels that stay in the map when it is moved. -/
def Stays (n : Nat) (k : ℤ) (x : Nat) : Prop := 0 ≤ (x : ℤ) + k ∧ (x : ℤ) + k < n

end Verif.Shift.Spec
