import Verif.SumScan.Types
import Mathlib.Analysis.SpecialFunctions.Log.Basic
import Mathlib.Tactic.Common

/-!
# Scans of a sum of likelihoods: what they have to compute
-/

namespace Verif.SumScan.Spec

variable {N : Type}

/-- The energies are positive and grow, there is a bin, and all vectors have a number for each pixel
of each bin. -/
structure Good (p : Part N) : Prop where
  sorted : p.edges.Pairwise (· < ·)
  positive : ∀ e ∈ p.edges, 0 < e ∧ e < 1e32
  bins : 2 ≤ p.edges.length
  data : p.data.length = p.npix * (p.edges.length - 1)
  templates : ∀ t ∈ p.templates, t.length = p.data.length
  names : p.names.length = p.templates.length
  refs : p.refs.length = p.templates.length
  fixed : p.fixed.length = p.data.length
  test : p.test.length = p.data.length
  weights : p.weights.length = p.data.length

/-- Energies of components that are closer than the tolerance are equal. -/
def Apart (ps : List (Part N)) : Prop :=
  ∀ p ∈ ps, ∀ q ∈ ps, ∀ a ∈ p.edges, ∀ b ∈ q.edges, |a - b| < 1e-5 → a = b

/-- The number at a place. -/
def at' (v : List ℝ) (i : Nat) : ℝ := v[i]?.getD 0

/-- The prediction of a component for one pixel of one bin, given the normalisations of the sources by
their names and that of the test source. -/
noncomputable def predicted (p : Part N) (norm : N → ℝ) (tn : ℝ) (i : Nat) : ℝ :=
  at' p.fixed i + ((p.names.zip p.templates).map fun nt => norm nt.1 * at' nt.2 i).sum +
    tn * at' p.test i

/-- What one pixel of one bin adds to the logarithm of the likelihood: counts below `1e-9` are
none. -/
noncomputable def term (d w m : ℝ) : ℝ :=
  (open Classical in if 1e-9 < d * w then d * w * Real.log m else 0) - m * w

/-- The logarithm of the likelihood of a component. -/
noncomputable def logLike (useWeights : Bool) (p : Part N) (norm : N → ℝ) (tn : ℝ) : ℝ :=
  ((List.range p.data.length).map fun i =>
    term (at' p.data i) (if useWeights then at' p.weights i else 1) (predicted p norm tn i)).sum

/-- The predictions are not negative, and positive where there are counts. -/
def Admissible (useWeights : Bool) (p : Part N) (norm : N → ℝ) (tn : ℝ) : Prop :=
  ∀ i < p.data.length, 0 ≤ predicted p norm tn i ∧
    (1e-9 < at' p.data i * (if useWeights then at' p.weights i else 1) → 0 < predicted p norm tn i)

end Verif.SumScan.Spec
