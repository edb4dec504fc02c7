import Mathlib.Order.Basic
import Mathlib.Tactic.Common

/-!
# Weights maps and their users: the calls, and the sources of a likelihood object
-/

namespace Verif.WtOwn

/-- A source of a likelihood object: its name, whether it is a composite source, the number of its
source map, and the sources it is made of. -/
inductive Tree (ν : Type) where
  | node (name : ν) (comp : Bool) (id : ℕ) (parts : List (Tree ν))

variable {ν : Type}

/-- The name of a source. -/
def Tree.name : Tree ν → ν
  | .node n _ _ _ => n

/-- The number of its source map. -/
def Tree.id : Tree ν → ℕ
  | .node _ _ i _ => i

/-- Whether it is composite. -/
def Tree.comp : Tree ν → Bool
  | .node _ c _ _ => c

/-- What it is made of. -/
def Tree.parts : Tree ν → List (Tree ν)
  | .node _ _ _ ps => ps

section
variable [DecidableEq ν]

/-- The source of that name. -/
def look (n : ν) (ts : List (Tree ν)) : Option (Tree ν) := ts.find? (fun t => t.name = n)

/-- The source of that name and the others. -/
def pick (n : ν) (ts : List (Tree ν)) : Option (Tree ν × List (Tree ν)) :=
  (look n ts).map (fun t => (t, ts.filter (fun t => t.name ≠ n)))

/-- The sources of these names and the others. -/
def pickAll : List ν → List (Tree ν) → Option (List (Tree ν) × List (Tree ν))
  | [], ts => some ([], ts)
  | n :: ns, ts =>
    match pick n ts with
    | none => none
    | some (t, rest) =>
      match pickAll ns rest with
      | none => none
      | some (ps, rest') => some (t :: ps, rest')

/-- One more source; there must be none of that name. -/
def insert (t : Tree ν) (ts : List (Tree ν)) : Option (List (Tree ν)) :=
  match look t.name ts with
  | some _ => none
  | none => some (ts ++ [t])

/-- Several more sources. -/
def insertAll : List (Tree ν) → List (Tree ν) → Option (List (Tree ν))
  | [], ts => some ts
  | p :: ps, ts =>
    match insert p ts with
    | none => none
    | some ts' => insertAll ps ts'

/-- The sources `ns` become one composite source `c`. -/
def mergeT (c : ν) (ns : List ν) (id : ℕ) (ts : List (Tree ν)) : Option (List (Tree ν)) :=
  match pickAll ns ts with
  | none => none
  | some (ps, rest) => insert (.node c true id ps) rest

/-- The composite source `c` is replaced by what it is made of. -/
def splitT (c : ν) (ts : List (Tree ν)) : Option (List (Tree ν)) :=
  match pick c ts with
  | none => none
  | some (t, rest) => if t.comp = true then insertAll t.parts rest else none

end

/-- The calls of a client.  `get`: a map is asked of the library of maps; the answer is the next
variable of the client.  `new v drop`: a likelihood object with the weights map in variable `v`
(or none), that forgets the original map if `drop` is set (`no_cached_weightmaps`).  `weights`:
another weights map for object `i`.  `add`, `merge`, `split`: its sources.  `sums`: the weighted
sums of the source map of a source are used; `image`: they are made again.  `helper`, `phase`,
`endHelper`: the object that holds the exposure map for a range of phases is made, the map is used,
the object is destroyed. -/
inductive Op (F ν : Type) where
  | get (f : F)
  | new (v : Option ℕ) (drop : Bool)
  | weights (i : ℕ) (v : Option ℕ)
  | add (i : ℕ) (n : ν)
  | merge (i : ℕ) (c : ν) (ns : List ν)
  | split (i : ℕ) (c : ν)
  | sums (i : ℕ) (n : ν)
  | image (i : ℕ) (n : ν)
  | helper (f : Option F)
  | phase (k : ℕ)
  | endHelper (k : ℕ)

end Verif.WtOwn
