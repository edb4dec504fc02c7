import Verif.Basic
import Verif.SnapOwn.Types
/-
The memory of `Snapshot_Source`: `latch_source`, `deep_copy`, the destructor and the comparison of the spatial
parts.

Simplifications.  A parameter is one number.  The parameters of all spatial functions of a source have different
names and are given as one list, with the names of these functions put together; the order of a `std::map` is
not kept.  Reading or freeing a parameter that does not exist is `.ub`.
-/
namespace Verif.SnapOwn
open Verif

/-- Reading a parameter. -/
def read (h : Heap) (a : Nat) : Res ℝ :=
  match h.cell a with
  | some v => .ok v
  | none => .ub

/-- `new Parameter(…)`. -/
def alloc (h : Heap) (v : ℝ) : Heap × Nat :=
  (⟨fun a => if a = h.next then some v else h.cell a, h.next + 1⟩, h.next)

/-- `delete`. -/
def free (h : Heap) (a : Nat) : Res Heap :=
  match h.cell a with
  | some _ => .ok ⟨fun b => if b = a then none else h.cell b, h.next⟩
  | none => .ub

/-- `delete_map`, Snapshot.cxx:23-28. -/
def freeMap : Params → Heap → Res Heap
  | [], h => .ok h
  | p :: l, h => do
    let h1 ← free h p.2
    freeMap l h1

/-- `deep_copy_param_map`, Snapshot.cxx:30-36, and the loops of `extract_spectral` and `extract_spatial`,
Snapshot.cxx:105-110, 127-131, when they clone. -/
def copyMap (deleteOld : Bool) : Params → Heap → Res (Params × Heap)
  | [], h => .ok ([], h)
  | p :: l, h => do
    let v ← read h p.2
    let (h1, a) := alloc h v
    let h2 ← (if deleteOld then free h1 p.2 else .ok h1)
    let (l', h3) ← copyMap deleteOld l h2
    .ok ((p.1, a) :: l', h3)

/-- Insertion into a map that may have entries. -/
def insertAll (old new : Params) : Params := new ++ old.filter fun p => !(new.map Prod.fst).contains p.1

/-- The default constructor, Snapshot.h:312-316. -/
def fresh : Snap := ⟨false, 0, [], "", []⟩

/-- The parameters freed at the start of `latch_source`, Snapshot.cxx:273-278; `delete_map` clears the maps. -/
def release (t : Snap) (h : Heap) : Res (Snap × Heap) :=
  if t.owned then do
    let h1 ← free h t.norm
    let h2 ← freeMap t.spat h1
    let h3 ← freeMap t.spec h2
    .ok ({ t with spec := [], spat := [] }, h3)
  else .ok (t, h)

/-- `latch_source`, Snapshot.cxx:272-285, with `extract_norm`, `extract_spectral` and `extract_spatial`,
Snapshot.cxx:87-133.  The name of the spatial functions is appended. -/
def latch (t : Snap) (s : Src) (owned : Bool) (h : Heap) : Res (Snap × Heap) := do
  let (t, h) ← release t h
  if owned then
    let v ← read h s.norm
    let (h1, a) := alloc h v
    let (spec, h2) ← copyMap false s.spec h1
    let (spat, h3) ← copyMap false s.spat h2
    .ok (⟨true, a, spec, t.spatName ++ s.spatName, insertAll t.spat spat⟩, h3)
  else
    .ok (⟨false, s.norm, s.spec, t.spatName ++ s.spatName, insertAll t.spat s.spat⟩, h)

/-- `deep_copy`, Snapshot.cxx:288-297. -/
def deepCopy (t : Snap) (h : Heap) : Res (Snap × Heap) := do
  let (norm, h1) ← (if t.owned then do
      let v ← read h t.norm
      let (h1, a) := alloc h v
      let h2 ← free h1 t.norm
      .ok (a, h2)
    else .ok (t.norm, h) : Res (Nat × Heap))
  let (spat, h2) ← copyMap t.owned t.spat h1
  let (spec, h3) ← copyMap t.owned t.spec h2
  .ok (⟨true, norm, spec, t.spatName, spat⟩, h3)

/-- The destructor, Snapshot.cxx:264-270. -/
def destroy (t : Snap) (h : Heap) : Res Heap :=
  if t.owned then do
    let h1 ← free h t.norm
    let h2 ← freeMap t.spat h1
    freeMap t.spec h2
  else .ok h

/-- Whether `compare_spatial` sees another type, Snapshot.cxx:194, 205. -/
def spatialChanged (t u : Snap) : Bool :=
  t.spatName != u.spatName || t.spat.map Prod.fst != u.spat.map Prod.fst

/-- `compare`, Snapshot.cxx:299-309, its spatial part: a snapshot of the source now, that owns nothing. -/
def compareSpatial (t : Snap) (s : Src) (h : Heap) : Res Bool := do
  let (u, _) ← latch fresh s false h
  .ok (spatialChanged t u)

end Verif.SnapOwn
