import Mathlib.Data.List.Nodup
/-
The source maps a cache owns.
-/
namespace Verif.MapOwn

/-- The cache of source maps: names with addresses (`none` is the null pointer), the addresses of the maps that
were created and not deleted, and the next new address. -/
structure Cache where
  maps : List (String × Option Nat)
  alive : List Nat
  next : Nat

/-- What a client does with the cache.  `get n c`: ask for the map of source `n`, which is computed when `c`
says so (a point source may be left without one).  `insert n a`: hand over the map at address `a`.  `recreate n`:
make the map of the source anew. -/
inductive Op where
  | get (name : String) (compute : Bool)
  | erase (name : String)
  | insert (name : String) (addr : Nat)
  | remove (name : String)
  | recreate (name : String)

end Verif.MapOwn
