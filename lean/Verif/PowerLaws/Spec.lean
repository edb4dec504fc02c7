import Verif.Spectra.Spec
import Mathlib.MeasureTheory.Integral.IntervalIntegral.Basic
/-
What an integrated spectrum is.
-/
namespace Verif.PowerLaws

/-- `F` gives the integrals of `f` between any two positive energies, in either order. -/
def Integrates (f : ℝ → ℝ) (F : ℝ → ℝ → ℝ) : Prop :=
  ∀ a b : ℝ, 0 < a → 0 < b → F a b = ∫ x in a..b, f x

/-- The power law with index `g` through the energies `lo`, `hi`, with integral `N`
between them; the limit form for index -1. -/
noncomputable def normalised (N g lo hi x : ℝ) : ℝ :=
  N * x ^ g / ∫ y in lo..hi, y ^ g

end Verif.PowerLaws
