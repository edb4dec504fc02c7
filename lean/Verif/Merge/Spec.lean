import Verif.StdMap
import Verif.Merge.Types
/-
What a user expects of merging and splitting of sources, stated without reference to the code.
-/
namespace Verif.Merge.Spec
open Verif.Merge Verif.StdMap

variable {ν : Type}

mutual
/-- The sources that are no composites in a source. -/
def leaves : Src ν → List Nat
  | .leaf id _ => [id]
  | .comp _ parts _ => leavesOf parts
/-- The same for several sources. -/
def leavesOf : List (ν × Src ν) → List Nat
  | [] => []
  | (_, s) :: ps => leaves s ++ leavesOf ps
end

variable [LinearOrder ν]

/-- The names in a composite source are distinct and its source maps are those of its parts, and
so on for the parts. -/
inductive Whole (binned : Bool) : Src ν → Prop where
  | leaf (id : Nat) (f : Bool) : Whole binned (.leaf id f)
  | comp (f : Bool) (parts : List (ν × Src ν)) (cache : Option (List (ν × List Nat)))
      (sorted : Sorted parts) (plain : binned = false → cache = none)
      (maps : binned = true → ∃ ch, cache = some ch ∧ Sorted ch ∧
        ∀ n, find ch n = (find parts n).map leaves)
      (whole : ∀ n s, find parts n = some s → Whole binned s) :
      Whole binned (.comp f parts cache)

/-- Names are distinct, sources are whole, and in a binned analysis every source has its map. -/
structure Right (srcs : List (ν × Src ν)) (maps : List (ν × List Nat)) (binned : Bool) : Prop where
  sortedSrcs : Sorted srcs
  sortedMaps : Sorted maps
  whole : ∀ n s, find srcs n = some s → Whole binned s
  map : binned = true → ∀ n s, find srcs n = some s → find maps n = some (leaves s)

/-- The flux density of a part: spectrum times response. -/
noncomputable def partValue : Part → ℝ
  | .point s r => s * r
  | .diffuse s r => s * r

end Verif.Merge.Spec
