import Verif.LogFit.Types
import Mathlib.Analysis.Calculus.Deriv.Basic
/-
Specification, independent of the model.
-/
namespace Verif.LogFit.Spec

/-- All positive. -/
def Positive (l : List ℝ) : Prop := ∀ x ∈ l, 0 < x

/-- Gradient and Hessian have the sizes of the normalizations, and inverses those of their matrices. -/
structure Sized (o : Objective) : Prop where
  grad : ∀ n g h, o.gh n = .ok (g, h) → g.length = n.length
  hess : ∀ n g h, o.gh n = .ok (g, h) → h.length = n.length
  inv : ∀ h c, o.invert h = (0, c) → c.length = h.length

/-- The negative logarithm of the likelihood of `d` counts, up to a constant, if the logarithm of the normalization is `u` and
`t` counts are expected for a normalization of one. -/
noncomputable def nll (d t u : ℝ) : ℝ := t * Real.exp u - d * (Real.log t + u)

end Verif.LogFit.Spec
