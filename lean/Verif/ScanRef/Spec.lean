import Verif.ScanRef.Types
import Mathlib.Analysis.SpecialFunctions.Sqrt
/-
The reference values a user expects.
-/
namespace Verif.ScanRef.Spec

/-- Without the unit of the reference energy: the row of the bin `i` from `lo` to `hi` (MeV) has its number,
its bounds in keV and the values of the source. -/
def Values (s : Src) (i : Nat) (lo hi : ℝ) (r : Row) : Prop :=
  r.channel = i + 1 ∧ r.emin = 1000 * lo ∧ r.emax = 1000 * hi ∧ r.dnde = s.dnde (Real.sqrt (lo * hi)) ∧
  r.flux = s.flux lo hi ∧ r.eflux = s.eflux lo hi ∧ r.npred = s.npred lo hi

/-- The reference energy, between the bounds of the bin, in keV as the bounds and as the header says. -/
def InBin (r : Row) : Prop := r.emin ≤ r.eref ∧ r.eref ≤ r.emax

/-- The table of a source. -/
def TableOf (s : Src) (es : List ℝ) (t : List Row) : Prop :=
  t.length + 1 = es.length ∧
  ∀ i lo hi r, es[i]? = some lo → es[i + 1]? = some hi → t[i]? = some r → Values s i lo hi r

end Verif.ScanRef.Spec
