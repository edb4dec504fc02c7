import Verif.Binned.Spec
/-
What a user expects of the counts attributed to a source.  `counts` and `total` are the counts
predicted for one source and for the model (`Verif.Binned.Spec`).
-/
namespace Verif.Attrib.Spec
open Verif.Vec Verif.Binned
open scoped BigOperators

/-- The observed counts in a pixel of a bin. -/
noncomputable def obs (e : Env) (raw : List ℝ) (k p : Nat) : ℝ := val raw (k * e.npix + p)

/-- The counts in bin `k` a source accounts for: in each pixel, the observed counts times its share
of the model; only pixels with a positive weight enter the likelihood. -/
noncomputable def attributed {ν : Type} (e : Env) (raw : List ℝ) (srcs : List (ν × Src)) (σ : Src)
    (k : Nat) : ℝ :=
  ∑ p ∈ Finset.range e.npix,
    if 0 < wt e k p then obs e raw k p * (counts e σ σ.vals k p / total e srcs k p) else 0

/-- The map of counts has a value for each pixel, the data are the counts times the weights. -/
structure Data (e : Env) (raw : List ℝ) : Prop where
  len : raw.length = e.nebins * e.npix
  nonneg : ∀ k p, 0 ≤ obs e raw k p
  wt : ∀ k p, 0 ≤ wt e k p
  data : ∀ k < e.nebins, ∀ p < e.npix, val e.data (k * e.npix + p) = Binned.wt e k p * obs e raw k p

/-- The model is positive wherever there are counts, in the selected bins. -/
def Covers {ν : Type} (e : Env) (raw : List ℝ) (a : Ideal ν) : Prop :=
  ∀ k, a.kmin ≤ k → k < a.kmax → ∀ p < e.npix, 0 < obs e raw k p → 0 < total e a.srcs k p

end Verif.Attrib.Spec
