import Verif.Basic
import Verif.Owner.Types
import Mathlib.Tactic.Common

/-!
# Maps and their projections: the code

A map holds a pointer to its projection.  The model keeps the store of projections, with the
freed ones marked, and the objects that are alive.  A projection is represented by its geometry
`G`; `reb f g` is the geometry after binning together `f` pixels by `f` pixels.
-/

namespace Verif.Owner

/-- A map that is alive: its family, whether its projection is a WCS one (otherwise HEALPix), and
the pointer `m_proj` (ProjMap.h:164, CountsMapBase.h:219). -/
structure Obj where
  kind : Kind
  wcs : Bool
  ptr : ℕ

/-- The store of projections (`none` once freed) and the objects (`none` once destroyed). -/
structure St (G : Type) where
  heap : List (Option G)
  objs : List (Option Obj)

variable {G : Type}

/-- Reading through a pointer: undefined after the projection was freed. -/
def deref (h : List (Option G)) (p : ℕ) : Res G :=
  match h[p]? with
  | some (some g) => .ok g
  | _ => .ub

/-- `delete m_proj`: undefined when it was freed before. -/
def free (h : List (Option G)) (p : ℕ) : Res (List (Option G)) :=
  match h[p]? with
  | some (some _) => .ok (h.set p none)
  | _ => .ub

/-- An object that is alive; the use of a destroyed one is undefined. -/
def obj (s : St G) (i : ℕ) : Res Obj :=
  match s.objs[i]? with
  | some (some o) => .ok o
  | _ => .ub

/-- A new object with a new projection: the constructors that make their own
(WcsMap2.cxx:202,255,318; HealpixProjMap.cxx:113-132,194-199,246-251; CountsMapBase.cxx:247-283
with CountsMap.cxx:333,365, CountsMapHealpix.cxx:291-293). -/
def make (s : St G) (k : Kind) (wcs : Bool) (g : G) : St G :=
  ⟨s.heap ++ [some g], s.objs ++ [some ⟨k, wcs, s.heap.length⟩]⟩

/-- The copy constructors, which clone the projection: ProjMap.cxx:69-80 and 82-92,
CountsMapBase.cxx:301-311 and 313-327. -/
def copy (s : St G) (i : ℕ) : Res (St G) := do
  let o ← obj s i
  let g ← deref s.heap o.ptr
  .ok (make s o.kind o.wcs g)

/-- The sky map of a counts map.  `WcsMap2(const CountsMap&, …)` hands the projection of the counts
map itself to `setProjInfo` (WcsMap2.cxx:382), which takes ownership of it (ProjMap.cxx:168-172);
it is used for the corners (385-397).  `HealpixProjMap(const CountsMapHealpix&, …)` makes its own
(HealpixProjMap.cxx:291-301). -/
def ofCounts (s : St G) (i : ℕ) : Res (St G) := do
  let o ← obj s i
  let g ← deref s.heap o.ptr
  match o.kind, o.wcs with
  | .map, _ => .throws
  | .counts, true => .ok ⟨s.heap, s.objs ++ [some ⟨.map, true, o.ptr⟩]⟩
  | .counts, false => .ok (make s .map false g)

/-- `operator=`, ProjMap.cxx:94-110: nothing for an assignment to itself, otherwise the old
projection is deleted and that of the right hand side cloned. -/
def assign (s : St G) (i j : ℕ) : Res (St G) := do
  let a ← obj s i
  let b ← obj s j
  if a.kind = .counts ∨ b.kind = .counts ∨ a.wcs ≠ b.wcs then .throws else
  if i = j then .ok s else do
    let h ← free s.heap a.ptr
    let g ← deref h b.ptr
    .ok ⟨h ++ [some g], s.objs.set i (some ⟨a.kind, a.wcs, h.length⟩)⟩

/-- `WcsMap2::rebin`, WcsMap2.cxx:959-1062: a copy of the map (960, with a clone of the
projection), then a new projection put in its place (995-997) without deleting the clone, as the
comment at 981-983 says.  The HEALPix one changes the map itself and keeps the projection
(HealpixProjMap.cxx:562-579); it is modelled in `Verif.MapLib`, and left out here. -/
def rebin (reb : ℕ → G → G) (s : St G) (i f : ℕ) : Res (St G) := do
  let o ← obj s i
  let g ← deref s.heap o.ptr
  match o.kind, o.wcs with
  | .map, true =>
      .ok ⟨s.heap ++ [some g] ++ [some (reb f g)],
        s.objs ++ [some ⟨.map, true, (s.heap ++ [some g]).length⟩]⟩
  | _, _ => .throws

/-- The destructors: ProjMap.cxx:59-67, CountsMapBase.cxx:328-337. -/
def del (s : St G) (i : ℕ) : Res (St G) := do
  let o ← obj s i
  let h ← free s.heap o.ptr
  .ok ⟨h, s.objs.set i none⟩

/-- The use of the projection: `skyDir`, ProjMap.cxx:113-132, `projection()`,
CountsMapBase.h:187. -/
def useProj (s : St G) (i : ℕ) : Res G := do
  let o ← obj s i
  deref s.heap o.ptr

/-- The layers of `convolveAll`, WcsMap2.cxx:590-595: each is a copy of the map, deleted after use. -/
def layers (h : List (Option G)) (p : ℕ) : ℕ → Res (List (Option G))
  | 0 => .ok h
  | n + 1 => do
    let g ← deref h p
    let h' ← free (h ++ [some g]) h.length
    layers h' p n

/-- The pointer of the sky map of `makeProjMap`, and the store after it: see `ofCounts`. -/
def projPtr (h : List (Option G)) (o : Obj) (g : G) : List (Option G) × ℕ :=
  if o.wcs then (h, o.ptr) else (h ++ [some g], h.length)

/-- `makeBkgEffMap`, CountsMap.cxx:230-280 and CountsMapHealpix.cxx:108-157: the copy that is
returned, the sky map, its convolution (WcsMap2.cxx:584-598), the deletion of the sky map, and, at
the end, that of the convolved map. -/
def bkgEff (s : St G) (i n : ℕ) : Res (St G) := do
  let o ← obj s i
  if o.kind = .map then .throws else do
    let g ← deref s.heap o.ptr
    let h1 := s.heap ++ [some g]
    let q := projPtr h1 o g
    let g2 ← deref q.1 q.2
    let h3 := q.1 ++ [some g2]
    let h4 ← layers h3 q.2 n
    let h5 ← free h4 q.2
    let h6 ← free h5 q.1.length
    .ok ⟨h6, s.objs ++ [some ⟨.counts, o.wcs, s.heap.length⟩]⟩

/-- One call, with what it lets the client see. -/
def step (reb : ℕ → G → G) (s : St G) : Op G → Res (St G × Option G)
  | .make k w g => .ok (make s k w g, none)
  | .copy i => do let s' ← copy s i; .ok (s', none)
  | .ofCounts i => do let s' ← ofCounts s i; .ok (s', none)
  | .assign i j => do let s' ← assign s i j; .ok (s', none)
  | .rebin i f => do let s' ← rebin reb s i f; .ok (s', none)
  | .del i => do let s' ← del s i; .ok (s', none)
  | .use i => do let g ← useProj s i; .ok (s, some g)
  | .bkgEff i n => do let s' ← bkgEff s i n; .ok (s', none)

/-- A history of calls, with all that the client saw. -/
def run (reb : ℕ → G → G) (s : St G) : List (Op G) → Res (St G × List (Option G))
  | [] => .ok (s, [])
  | op :: ops => do
    let r ← step reb s op
    let r' ← run reb r.1 ops
    .ok (r'.1, r.2 :: r'.2)

/-- The projections that are allocated. -/
def alive (s : St G) : ℕ := s.heap.countP (·.isSome)

/-- The objects that exist. -/
def existing (s : St G) : ℕ := s.objs.countP (·.isSome)

end Verif.Owner
