import Mathlib.Analysis.SpecialFunctions.Trigonometric.Basic
import Mathlib.Analysis.SpecialFunctions.Log.Basic
import Mathlib.Data.List.Perm.Basic
import Mathlib.Analysis.SpecialFunctions.Sqrt

/-!
# Sampled angles for diffuse responses: what is expected

Independent of the program.
-/

namespace Verif.MuDist.Spec

/-- `theta` is where the polygon through the points `(x k, F k)` has the height `xi`. -/
def Quantile (n : ℕ) (x F : ℕ → ℝ) (xi theta : ℝ) : Prop :=
  ∃ k, k + 1 < n ∧ F k ≤ xi ∧ xi < F (k + 1) ∧ x k ≤ theta ∧ theta < x (k + 1) ∧
    (theta - x k) * (F (k + 1) - F k) = (xi - F k) * (x (k + 1) - x k)

/-- The levels `1/(n-1), …, 1`. -/
noncomputable def levels (n : ℕ) : List ℝ := (List.range (n - 1)).map (fun i : ℕ => 1 / ((n : ℝ) - 1) * ((i : ℝ) + 1))

/-- The distribution of the angle: log-normal with the given error function. -/
noncomputable def dist01 (erf : ℝ → ℝ) (sigma mu x : ℝ) : ℝ :=
  1 / 2 + 1 / 2 * erf ((Real.log x - mu) / sigma / Real.sqrt 2)

/-- `n` angles from 0.0001 to a full turn in equal steps of the logarithm. -/
noncomputable def grid (n k : ℕ) : ℝ :=
  1 / 10000 * Real.exp (Real.log (2 * Real.pi / (1 / 10000)) / ((n : ℝ) - 1) * k)

/-- Band `k` of `n` bands of equal width in the logarithm between `emin` and `emax`. -/
def InBand (emin emax : ℝ) (n k : ℕ) (e : ℝ) : Prop :=
  Real.log emin + (Real.log emax - Real.log emin) / n * k ≤ Real.log e ∧
  Real.log e < Real.log emin + (Real.log emax - Real.log emin) / n * (k + 1)

end Verif.MuDist.Spec
