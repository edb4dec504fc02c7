import Verif.Counts.Model
import Mathlib.Algebra.BigOperators.Group.List.Basic
/-
Specification of the counts cache: planes, filled pixels and plane sums, written
with slices of the flat cube.
-/
namespace Verif.Counts

variable {K : Type} [Field K] [LinearOrder K]

/-- Plane `k` of a cube with `npix` pixels per plane. -/
def plane (npix : Nat) (d : List K) (k : Nat) : List K := (d.drop (k * npix)).take npix

/-- Pixels of a plane with positive content, in increasing order. -/
def positivePixels (pl : List K) : List Nat :=
  (List.range pl.length).filter (fun i => 0 < (pl[i]?).getD 0)

/-- The stretch of the filled-pixel list belonging to plane `k`. -/
def stretch (filled first : List Nat) (k : Nat) : List Nat :=
  (filled.drop ((first[k]?).getD 0)).take ((first[k + 1]?).getD 0 - (first[k]?).getD 0)

/-- Weighted counts: data times weight, zero if either is not positive. -/
def weighted (data weights : List K) : List K :=
  List.zipWith (fun d w => if w ≤ 0 ∨ d ≤ 0 then 0 else d * w) data weights

/-- The data the likelihood uses: weighted if there are weights. -/
def effective (data : List K) : Option (List K) → List K
  | none => data
  | some w => weighted data w

/-- Everything derived is what a fresh computation from data and weights gives. -/
structure Coherent (c : Cache K) : Prop where
  first_length : c.first.length = c.ne + 1
  last_first : c.first[c.ne]? = some c.filled.length
  monotone : ∀ k k', k ≤ k' → k' ≤ c.ne → (c.first[k]?).getD 0 ≤ (c.first[k']?).getD 0
  stretches : ∀ k, k < c.ne →
    stretch c.filled c.first k = positivePixels (plane c.npix (effective c.data c.wMap) k)
  spectrum : c.spec = (List.range c.ne).map (fun k => (plane c.npix c.data k).sum)
  spectrumWt : c.specWt =
    (List.range c.ne).map (fun k => (plane c.npix (effective c.data c.wMap) k).sum)

end Verif.Counts
