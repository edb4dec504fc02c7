import Verif.Edisp.Model
/-
Vocabulary of the statements about source maps and energy dispersion.
-/
namespace Verif.Edisp

open Verif.Vec
open scoped BigOperators

/-- Settings with which the dispersion ranges make sense: the offset relates the planes
of the map to the columns of the response matrix, and the full method does not ask for
more bins than the map and the matrix have. -/
structure Geom.Fits (g : Geom) : Prop where
  off : g.off = (g.eb : Int) - g.drmBins
  wide : 0 < g.ev → g.ev ≤ g.eb ∧ g.ev ≤ g.drmBins

variable {K : Type}

/-- A source map whose vectors have the sizes the code gives them. -/
structure SrcMap.Ok (s : SrcMap K) : Prop where
  fits : s.toGeom.Fits
  model : s.model.length = s.nEnergies * s.npix
  wts : s.specWts.length = s.nebins + 2 * s.eb
  cols : s.drmCols.length = s.nebins
  col : ∀ c ∈ s.drmCols, c.length = s.nebins + 2 * s.drmBins
  xi : s.xi.length = s.nebins
  kref : s.kref.length = s.nebins
  krefLt : ∀ r ∈ s.kref, r < s.nebins
  weights : ∀ w, s.weights = some w → w.length = s.nebins * s.npix

section
variable [Field K] [LinearOrder K]

/-- Weight of pixel `p` in measured bin `k` (1 without weights map). -/
def SrcMap.wt (s : SrcMap K) (k p : Nat) : K :=
  match s.weights with
  | none => 1
  | some w => val w (k * s.npix + p)

/-- Is the pixel excluded by the mask? -/
def SrcMap.Masked (s : SrcMap K) (useMask : Bool) (k p : Nat) : Prop :=
  useMask = true ∧ s.weights ≠ none ∧ s.wt k p ≤ 0

/-- Sum of plane `k` of a cube of `npix` pixels per plane. -/
def planeSum (npix : Nat) (cube : List K) (k : Nat) : K :=
  ∑ p ∈ Finset.range npix, val cube (k * npix + p)

/-- Sum of plane `k`, each pixel counted with the map's likelihood weight. -/
def SrcMap.weightedSum (s : SrcMap K) (cube : List K) (k : Nat) : K :=
  ∑ p ∈ Finset.range s.npix, s.wt k p * val cube (k * s.npix + p)

/-- Four empty spectra. -/
def Spectra.zero (n : Nat) : Spectra K :=
  ⟨List.replicate n 0, List.replicate n 0, List.replicate n 0, List.replicate n 0⟩

end
end Verif.Edisp
