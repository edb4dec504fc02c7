import Verif.MapOwn.Model
/-
The cache while a map of model counts is computed, src/SourceMapCache.cxx:336-367.

Simplifications.  The counts themselves are in Verif.ModMap; here only the maps that are made on the way.
-/
namespace Verif.MapOwn
open Verif

/-- One source, SourceMapCache.cxx:336-348 and 354-366: its map is asked for, used, and erased again when it was
not there before and is not to be kept.  The function for one source never keeps it (`keep` false); the one for
several keeps it with `save_all_srcmaps`.  A null pointer is used without a test (`reloadIfCleared`). -/
def useMap (c : Cache) (n : String) (compute keep : Bool) : Res Cache :=
  match getMap c n compute with
  | (none, _) => .ub
  | (some _, c1) =>
    if !(find n c.maps).isSome && !keep then eraseMap c1 n else .ok c1

/-- The loop over the sources, SourceMapCache.cxx:354-366; each with whether a map is computed for it. -/
def useMaps (keep : Bool) : List (String × Bool) → Cache → Res Cache
  | [], c => .ok c
  | (n, b) :: l, c => do
    let c ← useMap c n b keep
    useMaps keep l c

end Verif.MapOwn
