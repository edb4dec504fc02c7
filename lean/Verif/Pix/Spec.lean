import Mathlib.Algebra.BigOperators.Group.Finset.Basic
import Mathlib.Analysis.SpecialFunctions.Log.Basic
/-
What exposures, effective areas and counts in a pixel have to be.
-/
namespace Verif.Pix.Spec
open Real

/-- A time interval of the observation: livetime, the fraction of the time that was live, and the
position of the direction in the instrument. -/
structure Interval where
  lt : ℝ
  frac : ℝ
  cosTheta : ℝ
  phi : ℝ

/-- The exposure: the sum over the intervals of livetime, efficiency (a linear function of the fraction
of live time) and effective area. -/
noncomputable def exposure (l : List Interval) (p q : ℝ) (area : ℝ → ℝ → ℝ) : ℝ :=
  (l.map fun x => x.lt * (p + q * x.frac) * area x.cosTheta x.phi).sum

/-- The integral between two energies by one trapezoid in the logarithm of the energy. -/
noncomputable def logTrapezoid (emin emax y1 y2 : ℝ) : ℝ := (y1 * emin + y2 * emax) / 2 * log (emax / emin)

end Verif.Pix.Spec
