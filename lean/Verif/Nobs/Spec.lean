import Mathlib.Data.Real.Basic
/-
Energy bins: closed below and open above, the last one closed.
-/
namespace Verif.Nobs.Spec

/-- The energy is in bin `k`. -/
def InBin (eb : List ℝ) (k : Nat) (e : ℝ) : Prop :=
  ∃ lo hi, eb[k]? = some lo ∧ eb[k + 1]? = some hi ∧ lo ≤ e ∧ (e < hi ∨ (e = hi ∧ k + 2 = eb.length))

/-- The energy is within the bounds. -/
def Within (eb : List ℝ) (e : ℝ) : Prop :=
  ∃ lo hi, eb.head? = some lo ∧ eb.getLast? = some hi ∧ lo ≤ e ∧ e ≤ hi

/-- Sum of a quantity over the events with a property of their energy. -/
noncomputable def total {E : Type} (energy f : E → ℝ) (P : ℝ → Prop) (evs : List E) : ℝ :=
  open Classical in
  ((evs.filter (fun ev => decide (P (energy ev)))).map f).sum

end Verif.Nobs.Spec
