import Verif.CompMap.Types
import Verif.AddMap.Spec
import Mathlib.Analysis.SpecialFunctions.Log.Basic

/-!
# Source maps of composite sources: the specification

A source is an image, for every energy and pixel, times a spectrum; a composite source is the sum
of its parts times a spectrum.
-/

namespace Verif.CompMap.Spec

open Verif.Vec

/-- Sources. -/
inductive Tree
  | leaf (img : ℕ → ℕ → ℝ) (spec : ℕ → ℝ)
  | comp (spec : ℕ → ℝ) (parts : List Tree)

mutual
/-- The number of photons per energy at an energy, in a pixel. -/
def sky (k i : ℕ) : Tree → ℝ
  | .leaf img spec => img k i * spec k
  | .comp spec parts => skyAll k i parts * spec k
/-- The same for several sources together. -/
def skyAll (k i : ℕ) : List Tree → ℝ
  | [] => 0
  | t :: ts => sky k i t + skyAll k i ts
end

/-- The counts in an energy bin: trapezoids in the logarithm of the energy. -/
noncomputable def counts (energies : List ℝ) (f : ℕ → ℝ) (k : ℕ) : ℝ :=
  (f k * val energies k + f (k + 1) * val energies (k + 1)) / 2 *
    Real.log (val energies (k + 1) / val energies k)

mutual
/-- The source maps are those of the sources, for `numE` energies and `npix` pixels and a map `φ`
for a range of phases.  No source has energies beyond those of the data; the spectrum in a full map
was computed after the last change of parameters. -/
def Is (numE npix : ℕ) (φ : ℕ → ℕ → ℝ) : Src → Tree → Prop
  | .leaf s, .leaf img spec =>
    s.npix = npix ∧ s.nE = numE ∧
    (∃ M, s.Holds M ∧ ∀ k i, k < numE → i < npix → val M (k * npix + i) = img k i * φ k i) ∧
    (s.isSparse = false → s.specVals = s.current) ∧ ∀ k < numE, val s.current k = spec k
  | .comp bins l parts, .comp spec ts =>
    bins = 0 ∧ l.length = numE ∧ (∀ k < numE, val l k = spec k) ∧ IsAll numE npix φ parts ts
  | _, _ => False
/-- The same for the sources of a composite source. -/
def IsAll (numE npix : ℕ) (φ : ℕ → ℕ → ℝ) : List Src → List Tree → Prop
  | [], [] => True
  | s :: ss, t :: ts => Is numE npix φ s t ∧ IsAll numE npix φ ss ts
  | _, _ => False
end

end Verif.CompMap.Spec
