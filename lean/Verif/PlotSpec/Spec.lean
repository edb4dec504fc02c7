import Verif.PlotSpec.Types
import Mathlib.Data.Real.Sqrt
/-
What the plots of counts spectra mean.  `e k` are the energies that bound the bins, `c k` the counts of a bin.
-/
namespace Verif.PlotSpec.Spec

/-- The energies are positive and increase. -/
def Bins (e : Nat → ℝ) : Prop := 0 < e 0 ∧ ∀ k, e k < e (k + 1)

/-- A point stands for a bin: it lies inside the bin, and height and error times the width of the bin are the
counts and their uncertainty. -/
def Stands (e c : Nat → ℝ) (k : Nat) (p : Point) : Prop :=
  e k < p.x ∧ p.x < e (k + 1) ∧ p.y * (e (k + 1) - e k) = c k ∧ p.err * (e (k + 1) - e k) = Real.sqrt (c k)

/-- A point of a line stands for the expected counts of a bin. -/
def Drawn (e c : Nat → ℝ) (k : Nat) (p : ℝ × ℝ) : Prop :=
  e k < p.1 ∧ p.1 < e (k + 1) ∧ p.2 * (e (k + 1) - e k) = c k

/-- The expected counts of all sources in a bin. -/
def Expected : List (Nat → ℝ) → Nat → ℝ
  | [], _ => 0
  | m :: ms, k => m k + Expected ms k

/-- A residual: the difference of the counts in units of the expected counts. -/
def Residual (c m : Nat → ℝ) (k : Nat) (p : Point) : Prop :=
  p.y = (c k - m k) / m k ∧ p.err = Real.sqrt (c k) / m k

end Verif.PlotSpec.Spec
