import Verif.BackFile.Types
import Mathlib.Algebra.BigOperators.Group.List.Basic
import Mathlib.Algebra.BigOperators.Group.Finset.Basic
/-
What a user expects of background spectra, stated without reference to the code.
-/
namespace Verif.BackFile.Spec
open Verif.BackFile

/-- The sources of the background. -/
def background (target : Name) (ss : List Src) : List Src := ss.filter (fun s => s.name ≠ target)

/-- The bin `[lo, hi]` (in keV) restricted to the energies `[front, back]` (in MeV). -/
noncomputable def clipped (front back : ℝ) (b : ℝ × ℝ) : ℝ × ℝ :=
  (max (b.1 / 1000) front, min (b.2 / 1000) back)

/-- The counts and derivatives are as given. -/
def Known (n : Src → ℝ → ℝ → ℝ) (d : Par → ℝ → ℝ → ℝ) (s : Src) : Prop :=
  (∀ lo hi, s.npred lo hi = .ok (n s lo hi)) ∧ ∀ p ∈ s.pars, ∀ lo hi, p.deriv lo hi = .ok (d p lo hi)

/-- Variance of a quantity with gradient `g` for the covariances `cov` of the parameters. -/
def variance (g : List ℝ) (cov : Nat → Nat → ℝ) : ℝ :=
  ∑ i ∈ Finset.range g.length, ∑ j ∈ Finset.range g.length, g.getD i 0 * cov i j * g.getD j 0

end Verif.BackFile.Spec
