import Mathlib.Data.List.Basic
import Verif.FindSrc.Types
/-
Specification of gtfindsrc, without reference to the code.
-/
namespace Verif.FindSrc.Spec

/-- The point `p` is the one tried last among those with the lowest value. -/
def Best (tried : List Pt) (p : Pt) : Prop :=
  (∀ q ∈ tried, p.value ≤ q.value) ∧
    ∃ l₁ l₂, tried = l₁ ++ p :: l₂ ∧ ∀ q ∈ l₂, p.value < q.value

/-- The values near the lowest are a parabola of width `σ` (in radians) in the separation. -/
def Parabola (sep : ℝ × ℝ → ℝ × ℝ → ℝ) (p : Pt) (tried : List Pt) (σ : ℝ) : Prop :=
  ∀ q ∈ tried, q.value < p.value + 2 →
    q.value = p.value + (sep p.at' q.at') ^ 2 / (2 * σ ^ 2)

/-- Bounds of right ascension and declination. -/
def InBounds (c : ℝ × ℝ) : Prop := (-360 ≤ c.1 ∧ c.1 ≤ 360) ∧ (-90 ≤ c.2 ∧ c.2 ≤ 90)

end Verif.FindSrc.Spec
