import Verif.TrapQuad.Spec
import Mathlib.Analysis.SpecialFunctions.Pow.Real
import Mathlib.MeasureTheory.Integral.IntervalIntegral.Basic
/-
Energies in equal steps of the logarithm, and what counts and fluxes on them are.
-/
namespace Verif.Npred.Spec
open Real

/-- The energies are `e0, e0 r, e0 r², …`. -/
structure LogGrid (E : List ℝ) (e0 r : ℝ) : Prop where
  pos : 0 < e0
  ratio : 1 < r
  two : 2 ≤ E.length
  entry : ∀ k (h : k < E.length), E[k] = e0 * r ^ k

/-- The straight line in the logarithm of the energy through two points. -/
noncomputable def logInterp (e0 x0 e1 x1 e : ℝ) : ℝ := x0 + (log e - log e0) / (log e1 - log e0) * (x1 - x0)

/-- `x` is the value at `e` of the polygon, in the logarithm of the energy, through the exposures `X` at
the energies `E`. -/
def OnPolygon (E X : List ℝ) (e x : ℝ) : Prop :=
  ∃ i e0 e1 x0 x1, E[i]? = some e0 ∧ E[i + 1]? = some e1 ∧ X[i]? = some x0 ∧ X[i + 1]? = some x1 ∧
    e0 ≤ e ∧ e ≤ e1 ∧ x = logInterp e0 x0 e1 x1 e

/-- `n` energies from `a` to `b` in equal steps of the logarithm. -/
noncomputable def logPoints (a b : ℝ) (n : ℕ) : List ℝ := (List.range n).map fun k : ℕ => a * (b / a) ^ ((k : ℝ) / ((n : ℝ) - 1))

/-- The counts: the logarithmic trapezoid of spectrum times exposure. -/
noncomputable def counts (E X : List ℝ) (S : ℝ → ℝ) : ℝ :=
  TrapQuad.logTrapezoid (List.zipWith (fun e x => (e, S e * x)) E X)

/-- The integral of `N e^(-γ)` for `γ ≠ 1`. -/
noncomputable def powerLawIntegral (N γ a b : ℝ) : ℝ := N * (b ^ (1 - γ) - a ^ (1 - γ)) / (1 - γ)

end Verif.Npred.Spec
