import Mathlib.Data.Real.Basic
import Mathlib.Algebra.BigOperators.Group.Finset.Basic
/-
What the map of a point source has to hold.
-/
namespace Verif.PsfMap.Spec

/-- The sum over the pixels up to a separation. -/
noncomputable def near (npix : Nat) (sep : Nat → ℝ) (radius : ℝ) (f : Nat → ℝ) : ℝ :=
  open Classical in ∑ j ∈ (Finset.range npix).filter (fun j => sep j ≤ radius), f j

/-- The value for layer `k` and pixel `j`, layers one after the other. -/
def at' (npix : Nat) (m : List ℝ) (k j : Nat) : Option ℝ := m[j + npix * k]?

/-- Pixel `i` is one of the closest. -/
def IsClosest (dists : List ℝ) (i : Nat) : Prop := ∃ d, dists[i]? = some d ∧ ∀ e ∈ dists, d ≤ e

end Verif.PsfMap.Spec
