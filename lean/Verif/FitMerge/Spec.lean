import Verif.FitMerge.Types
import Mathlib.Algebra.BigOperators.Group.List.Basic
/-
What putting components together has to give.
-/
namespace Verif.FitMerge.Spec

/-- A component given by its layers: energy bounds, number of pixels, and the counts of each bin. -/
structure Layers where
  edges : List ℝ
  npix : Nat
  layers : List (List ℝ)

/-- The energies are positive and grow, there is a layer between any two successive ones, and all layers have
the same size. -/
structure Good (c : Layers) : Prop where
  sorted : c.edges.Pairwise (· < ·)
  positive : ∀ e ∈ c.edges, 0 < e ∧ e < 1e32
  count : c.edges.length = c.layers.length + 1
  sizes : ∀ l ∈ c.layers, l.length = c.npix

/-- Energies that are closer than the tolerance are equal. -/
def Apart (tol : ℝ) (cs : List Layers) : Prop :=
  ∀ c ∈ cs, ∀ c' ∈ cs, ∀ a ∈ c.edges, ∀ b ∈ c'.edges, |a - b| < tol → a = b

/-- The component as the program has it. -/
def Layers.comp (c : Layers) : Comp := ⟨c.edges, c.npix, c.layers.flatten⟩

/-- The layer of the bin that begins at an energy; nothing if none does. -/
noncomputable def layerAt (e : ℝ) : List ℝ → List (List ℝ) → List ℝ
  | a :: as, l :: ls => open Classical in if a = e then l else layerAt e as ls
  | _, _ => []

/-- The counts of all components for bins that begin at an energy. -/
noncomputable def allAt (cs : List Layers) (e : ℝ) : List ℝ := cs.flatMap fun c => layerAt e c.edges c.layers

end Verif.FitMerge.Spec
