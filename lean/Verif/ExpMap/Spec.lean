import Mathlib.Analysis.SpecialFunctions.Log.Basic
import Mathlib.Algebra.BigOperators.Group.Finset.Basic
/-
What a map of the exposure has to contain and what the exposure of a diffuse source is.
-/
namespace Verif.ExpMap.Spec

/-- Energies from `emin` to `emax`, each larger than the one before by the same factor. -/
structure LogGrid (emin emax : ℝ) (es : List ℝ) : Prop where
  first : es.head? = some emin
  last : es.getLast? = some emax
  inc : es.Pairwise (· < ·)
  ratio : ∃ q : ℝ, ∀ k, ∀ h : k + 1 < es.length, es[k + 1] = q * es[k]

/-- Whether a pixel (column `i`, row `j`, from zero) is within a range of columns and rows. -/
def InRange (imin imax jmin jmax : ℤ) (i j : Nat) : Prop :=
  imin ≤ i ∧ (i : ℤ) < imax ∧ jmin ≤ j ∧ (j : ℤ) < jmax

/-- The place of a value in the image: columns, then rows, then energies. -/
def place (nlon nlat i j k : Nat) : Nat := i + nlon * (j + nlat * k)

/-- The energies of an exposure map, positive and increasing, at least two. -/
structure Grid (es : List ℝ) : Prop where
  two : 2 ≤ es.length
  pos : ∀ e ∈ es, 0 < e
  inc : es.Pairwise (· < ·)

/-- The number of photons expected for each unit of the spectrum: the sum over the pixels of
exposure, source and solid angle. -/
noncomputable def total {ι : Type} (s : Finset ι) (exposure source omega : ι → ℝ) : ℝ :=
  ∑ p ∈ s, exposure p * source p * omega p

end Verif.ExpMap.Spec
