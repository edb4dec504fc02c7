import Verif.AddMap.Model
import Verif.Sparse.Spec
import Verif.Vec
/-
Vocabulary of the statements about adding maps to vectors.
-/
namespace Verif.AddMap
open Verif.Sparse Verif.Vec

variable {K : Type} [Field K] [DecidableEq K]

/-- The arguments `kmin`, `kmax` ask for the planes from `a` up to, not including, `b`. -/
def Planes (nE : Nat) (kmin kmax : Int) (a b : Nat) : Prop :=
  kmin = a ∧ (kmax = b ∨ (kmax < 0 ∧ b = nE)) ∧ a ≤ b ∧ b ≤ nE

/-- The map stored is `M`, densely or sparsely; the source has a spectrum at every energy. -/
structure SMap.Holds (s : SMap K) (M : List K) : Prop where
  size : M.length = s.nE * s.npix
  dense : s.isSparse = false → s.model = M ∧ M ≠ []
  sparse : s.isSparse = true → Represents s.sparse M ∧ s.sparse.null = 0
  spec : s.current.length = s.nE

/-- `out` is `v` with `sign` times the planes `a`, `a + 1`, … of `M` added, each times its
factor. -/
def Added (sign : K) (npix a : Nat) (M : List K) (f : Nat → K) (v out : List K) : Prop :=
  out.length = v.length ∧
  ∀ k p, k * npix + p < v.length → p < npix →
    val out (k * npix + p) = val v (k * npix + p) + sign * (val M ((a + k) * npix + p) * f (a + k))

/-- The factor of a plane: the given spectrum, or one. -/
def factors (includeSpec : Bool) (spec : List K) (k : Nat) : K := if includeSpec then val spec k else 1

end Verif.AddMap
