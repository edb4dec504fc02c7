import Mathlib.MeasureTheory.Measure.Lebesgue.Basic
/-
What a user expects of the livetime: the part of each interval of the spacecraft data that
lies in the time cuts and in the good time intervals.
-/
namespace Verif.Livetime.Spec
open MeasureTheory

/-- The times of an interval that pass all the cuts and are in a good time interval. -/
def good (start stop : ℝ) (cuts gtis : List (ℝ × ℝ)) : Set ℝ :=
  {t | start ≤ t ∧ t ≤ stop ∧ (∀ c ∈ cuts, c.1 ≤ t ∧ t ≤ c.2) ∧ ∃ g ∈ gtis, g.1 ≤ t ∧ t ≤ g.2}

/-- The fraction of the interval that is good. -/
noncomputable def fraction (start stop : ℝ) (cuts gtis : List (ℝ × ℝ)) : ℝ :=
  (volume (good start stop cuts gtis)).toReal / (stop - start)

/-- Intervals in order that do not overlap. -/
def Ordered (l : List (ℝ × ℝ)) : Prop :=
  (∀ g ∈ l, g.1 ≤ g.2) ∧ l.Pairwise fun a b => a.2 ≤ b.1

end Verif.Livetime.Spec
