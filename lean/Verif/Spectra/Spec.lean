import Mathlib.Analysis.Calculus.Deriv.Basic
/-
Parameters of a spectral function, and partial derivatives with respect to them.
-/
namespace Verif.Spectra

/-- `optimizers::Parameter`: the value a fit varies and the fixed scale.  What enters the
formula is their product, the true value. -/
structure P where
  value : ℝ
  scale : ℝ

/-- `getTrueValue` -/
def P.tv (q : P) : ℝ := q.value * q.scale

/-- The parameters of a function, in its order. -/
abbrev Pars := Nat → P

/-- The same parameters with another value for one of them (`setValue`). -/
def setv (p : Pars) (i : Nat) (t : ℝ) : Pars := Function.update p i ⟨t, (p i).scale⟩

/-- `d` is the partial derivative of `f` with respect to the value of parameter `i`. -/
def Partial (f : Pars → ℝ) (p : Pars) (i : Nat) (d : ℝ) : Prop :=
  HasDerivAt (fun t => f (setv p i t)) d (p i).value

end Verif.Spectra
