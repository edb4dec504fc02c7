import Verif.CountSpec.Types
import Mathlib.Algebra.BigOperators.Group.List.Basic
import Mathlib.Analysis.SpecialFunctions.Pow.Real
/-
What a user expects of tables of counts spectra, stated without reference to the code.
-/
namespace Verif.CountSpec.Spec
open Verif.CountSpec

/-- `n` logarithmically equal steps from `emin` to `emax`: energy number `k`. -/
noncomputable def logEnergy (emin emax : ℝ) (n k : Nat) : ℝ :=
  emin * (emax / emin) ^ ((k : ℝ) / (n : ℝ))

/-- Bin number `k` of the energies is `[lo, hi]`. -/
def Bin (es : List ℝ) (k : Nat) (lo hi : ℝ) : Prop := es[k]? = some lo ∧ es[k + 1]? = some hi

/-- Number of events in `[lo, hi)`, or in `[lo, hi]` for the last bin. -/
noncomputable def events (evs : List ℝ) (lo hi : ℝ) (last : Prop) : ℝ :=
  open Classical in
  ((evs.filter (fun e => decide (lo ≤ e ∧ (e < hi ∨ (e = hi ∧ last))))).length : ℝ)

/-- Counts expected between two energies do not depend on how the range is divided. -/
def Additive (f : ℝ → ℝ → ℝ) : Prop := ∀ a b c, a ≤ b → b ≤ c → f a b + f b c = f a c

/-- Column `n` of a table: the values of its rows, if all rows have them. -/
def column (t : Table) (n : Name) : List (Option ℝ) := t.rows.map (fun r => r[t.cols.idxOf n]?)

end Verif.CountSpec.Spec
