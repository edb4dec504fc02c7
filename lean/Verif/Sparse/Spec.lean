import Verif.Sparse.Model
/-
Specification for the sparse vector: a plain list with the `std::vector`
meaning of each operation.
-/
namespace Verif.Sparse

variable {T : Type}

/-- What each operation does to a plain vector (`null` is the fill value). -/
def denseStep [DecidableEq T] (null : T) (v : List T) : Op T → List T
  | .pushBack x => v ++ [x]
  | .fillFromVect w => if v.length = w.length then w else v
  | .clear => []
  | .clearData => List.replicate v.length null
  | .resize n => vresize v n null
  | .freeMemory => []

/-- A history applied to a plain vector. -/
def denseRun [DecidableEq T] (null : T) (v : List T) (ops : List (Op T)) : List T :=
  ops.foldl (denseStep null) v

/-- The history never shrinks the vector with `resize`, started from a vector of
length `n`. -/
def NoShrink [DecidableEq T] (null : T) : List T → List (Op T) → Prop
  | _, [] => True
  | v, op :: ops => (∀ n, op = .resize n → v.length ≤ n) ∧ NoShrink null (denseStep null v op) ops

/-- The non-null elements of a plain vector with their indices, in order. -/
def nonNull [DecidableEq T] (null : T) (v : List T) : List (Nat × T) :=
  (v.zipIdx.filter (fun p => p.1 ≠ null)).map (fun p => (p.2, p.1))

/-- `s` represents the plain vector `v`. -/
structure Represents [DecidableEq T] (s : SV T) (v : List T) : Prop where
  size_eq : s.size = v.length
  get_eq : ∀ i (h : i < v.length), s.get i = v[i]
  get_out : ∀ i, v.length ≤ i → s.get i = s.null
  entries : s.data = nonNull s.null v

end Verif.Sparse
