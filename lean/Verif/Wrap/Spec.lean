import Verif.Basic
import Verif.Spectra.Spec
import Mathlib.Analysis.SpecialFunctions.Exp
/-
What a user expects from a spectrum wrapped in another one.
-/
namespace Verif.Wrap
open Verif.Spectra (P Pars Partial)

/-- A spectral function as its users see it: the number of its parameters, the value and
the reported derivative by the value of a parameter. -/
structure Fn where
  n : Nat
  value : Pars → ℝ → ℝ
  deriv : Pars → Nat → ℝ → Res ℝ

/-- The value depends only on the function's own parameters. -/
def Local (f : Fn) : Prop := ∀ p q x, (∀ i < f.n, p i = q i) → f.value p x = f.value q x

/-- Whatever is reported as a derivative is the partial derivative of the value. -/
def Sound (f : Fn) (p : Pars) (x : ℝ) : Prop :=
  ∀ i < f.n, ∀ d, f.deriv p i x = .ok d → Partial (fun q => f.value q x) p i d

/-- The factor of the complement form makes sense. -/
def Fraction (t : ℝ) : Prop := 0 ≤ t ∧ t ≤ 1

end Verif.Wrap
