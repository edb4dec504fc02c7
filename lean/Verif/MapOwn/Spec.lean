import Verif.MapOwn.Types
/-
Who owns which map.
-/
namespace Verif.MapOwn.Spec

/-- The maps in the cache. -/
def owned (c : Cache) : List Nat := c.maps.filterMap Prod.snd

/-- Every living map has exactly one owner: it is in the cache under one name, or the client holds it. -/
structure Single (c : Cache) (held : List Nat) : Prop where
  owners : (owned c ++ held).Perm c.alive
  once : c.alive.Nodup
  old : ∀ a ∈ c.alive, a < c.next
  names : (c.maps.map Prod.fst).Nodup

/-- The cache has a map at this address for this name. -/
def Has (c : Cache) (n : String) (a : Nat) : Prop := (n, some a) ∈ c.maps

/-- The name is not used in the cache. -/
def Free (c : Cache) (n : String) : Prop := ∀ p ∈ c.maps, p.1 ≠ n

end Verif.MapOwn.Spec
