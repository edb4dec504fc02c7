import Mathlib.Analysis.SpecialFunctions.Pow.Real
import Verif.PsfApp.Types
/-
What gtpsf is to write: energies at equal distances on a logarithmic scale, angles whose roots are
at equal distances, and the PSF at each of them.
-/
namespace Verif.PsfApp.Spec

/-- The `k`-th of `n` energies. -/
noncomputable def energy (emin emax : ℝ) (n k : Nat) : ℝ := emin * (emax / emin) ^ ((k : ℝ) / ((n : ℝ) - 1))

/-- The `i`-th of `n` angles. -/
noncomputable def angle (m : ℝ) (n i : Nat) : ℝ := m * ((i : ℝ) / n) ^ 2

/-- The table is that of the PSF `psf` and the exposure `x`. -/
def IsTable (p : Pars) (n t : Nat) (x : Nat → ℝ) (psf : ℝ → ℝ → ℝ) (f : File) : Prop :=
  f.rows.length = n ∧ f.thetas.length = t ∧ (∀ i < t, f.thetas[i]? = some (angle p.thetamax t i)) ∧
    ∀ k < n, ∃ r, f.rows[k]? = some r ∧ r.energy = energy p.emin p.emax n k ∧ r.exposure = x k ∧ r.psf.length = t ∧
      ∀ i < t, r.psf[i]? = some (psf (energy p.emin p.emax n k) (angle p.thetamax t i))

end Verif.PsfApp.Spec
