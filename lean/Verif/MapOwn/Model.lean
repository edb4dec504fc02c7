import Verif.Basic
import Verif.MapOwn.Types
/-
The ownership of source maps in `SourceMapCache`, src/SourceMapCache.cxx:63-68, 112-182, 222-246, and
`BinnedLikelihood::addSource` with a map, src/BinnedLikelihood.cxx:323-339.

Simplifications.  A map is its address; addresses are never used again (a reused address would hide a dangling
pointer, not mend it).  What the maps hold is in Verif.SrcMap, what is read from files in Verif.MapFile.
-/
namespace Verif.MapOwn
open Verif

/-- `m_srcMaps.find`. -/
def find (n : String) : List (String × Option Nat) → Option (Option Nat)
  | [] => none
  | (k, v) :: l => if k = n then some v else find n l

/-- `m_srcMaps.erase`. -/
def drop (n : String) : List (String × Option Nat) → List (String × Option Nat)
  | [] => []
  | (k, v) :: l => if k = n then l else (k, v) :: drop n l

/-- `delete`: nothing for a null pointer; undefined for a map that is already deleted. -/
def del (alive : List Nat) : Option Nat → Res (List Nat)
  | none => .ok alive
  | some a => if a ∈ alive then .ok (alive.erase a) else .ub

/-- `getSourceMap`, SourceMapCache.cxx:112-148: the map of the cache, or a new one, or a null pointer. -/
def getMap (c : Cache) (n : String) (compute : Bool) : Option Nat × Cache :=
  match find n c.maps with
  | some v => (v, c)
  | none =>
    if compute then (some c.next, ⟨(n, some c.next) :: c.maps, c.next :: c.alive, c.next + 1⟩)
    else (none, ⟨(n, none) :: c.maps, c.alive, c.next⟩)

/-- `eraseSourceMap`, SourceMapCache.cxx:157-160: `operator[]` gives a null pointer for a missing name, which is
then erased again. -/
def eraseMap (c : Cache) (n : String) : Res Cache := do
  let alive ← del c.alive ((find n c.maps).getD none)
  .ok { c with maps := drop n c.maps, alive := alive }

/-- `insertSourceMap`, SourceMapCache.cxx:163-173. -/
def insertMap (c : Cache) (n : String) (a : Nat) : Res Cache :=
  match find n c.maps with
  | none => .ok { c with maps := (n, some a) :: c.maps }
  | some v => if v = some a then .ok c else .throws

/-- `removeSourceMap`, SourceMapCache.cxx:175-182. -/
def removeMap (c : Cache) (n : String) : Res (Option Nat × Cache) :=
  match find n c.maps with
  | none => .throws
  | some v => .ok (v, { c with maps := drop n c.maps })

/-- `m_srcMaps[n] = a`. -/
def assign (n : String) (a : Nat) (l : List (String × Option Nat)) : List (String × Option Nat) :=
  (n, some a) :: drop n l

/-- `loadSourceMap` with `recreate`, SourceMapCache.cxx:222-246, and whether it ended with an exception: the old
map is deleted, a new one is made, which may fail, and is then stored. -/
def recreateMap (c : Cache) (n : String) (fails : Bool) : Res (Cache × Bool) := do
  let alive ← del c.alive ((find n c.maps).getD none)
  if fails then .ok ({ c with alive := alive }, true)
  else .ok (⟨assign n c.next c.maps, c.next :: alive, c.next + 1⟩, false)

/-- The loop of the destructor, SourceMapCache.cxx:63-68: the maps that are left. -/
def destroyAll : List (String × Option Nat) → List Nat → Res (List Nat)
  | [], alive => .ok alive
  | (_, v) :: l, alive => do
    let alive ← del alive v
    destroyAll l alive

/-- The destructor. -/
def destroy (c : Cache) : Res (List Nat) := destroyAll c.maps c.alive

/-- One step of a client that holds maps; an exception leaves everything as it was. -/
def step (c : Cache) (held : List Nat) : Op → Res (Cache × List Nat)
  | .get n b => .ok ((getMap c n b).2, held)
  | .erase n => do
    let c ← eraseMap c n
    .ok (c, held)
  | .insert n a =>
    match insertMap c n a with
    | .ok c => .ok (c, held.erase a)
    | .throws => .ok (c, held)
    | .ub => .ub
  | .remove n =>
    match removeMap c n with
    | .ok (v, c) => .ok (c, v.toList ++ held)
    | .throws => .ok (c, held)
    | .ub => .ub
  | .recreate n => do
    let r ← recreateMap c n false
    .ok (r.1, held)

/-- Steps one after the other. -/
def run : List Op → Cache → List Nat → Res (Cache × List Nat)
  | [], c, held => .ok (c, held)
  | o :: l, c, held => do
    let r ← step c held o
    run l r.1 r.2

/-- `BinnedLikelihood::addSource`, BinnedLikelihood.cxx:323-339, as far as the cache goes: `single` and `fixed`
say whether the source goes to the fixed model, which asks for a map of its own and does not use the one given
(864-886).  Sources for which no map is computed are left out here. -/
def addSource (c : Cache) (n : String) (single fixed loadMap : Bool) (srcMap : Option Nat) : Res Cache :=
  if single && fixed then .ok (getMap c n true).2
  else if loadMap then
    match srcMap with
    | none => .ok (getMap c n true).2
    | some a => do
      let c ← eraseMap c n
      insertMap c n a
  else .ok c

end Verif.MapOwn
