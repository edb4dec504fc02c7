import Mathlib.Analysis.SpecialFunctions.Sqrt
/-
Bins in the cosine of the inclination.
-/
namespace Verif.CosBins.Spec

/-- How deep a cosine lies between one and the smallest cosine `c`: linear in the cosine or in the square root of one minus it. -/
noncomputable def depth (root : Bool) (c mu : ℝ) : ℝ := if root then √((1 - mu) / (1 - c)) else (1 - mu) / (1 - c)

/-- The cosine is in bin `k` of `n` bins of equal depth. -/
def InBin (root : Bool) (c : ℝ) (n k : Nat) (mu : ℝ) : Prop := (k : ℝ) ≤ n * depth root c mu ∧ n * depth root c mu < k + 1

/-- The cosine is within the limits `(lower, upper)` of a row. -/
def InRow (r : ℝ × ℝ) (mu : ℝ) : Prop := r.1 < mu ∧ mu ≤ r.2

end Verif.CosBins.Spec
