/-!
# Maps and their projections: the calls

The calls a client can make on counts maps and on sky maps, as far as the projections they hold
are concerned.  A map is named by the number of the call result it came from.
-/

namespace Verif.Owner

/-- The two families of maps: `CountsMapBase` (CountsMapBase.h:42-263) and `ProjMap`
(ProjMap.h:33-183). -/
inductive Kind
  | counts
  | map
deriving DecidableEq, Repr

/-- The calls. -/
inductive Op (G : Type)
  /-- A map read from a file or made from scratch, with geometry `g`. -/
  | make (k : Kind) (wcs : Bool) (g : G)
  /-- A copy of map `i`. -/
  | copy (i : Nat)
  /-- A sky map made from counts map `i`. -/
  | ofCounts (i : Nat)
  /-- Sky map `i` is assigned the value of sky map `j`. -/
  | assign (i j : Nat)
  /-- Sky map `i` rebinned by a factor. -/
  | rebin (i f : Nat)
  /-- Map `i` is destroyed. -/
  | del (i : Nat)
  /-- The projection of map `i` is used. -/
  | use (i : Nat)
  /-- The map of the effective background of counts map `i`, which has `n` energy bands. -/
  | bkgEff (i n : Nat)

end Verif.Owner
