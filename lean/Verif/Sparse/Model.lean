import Verif.Basic
/-
Model of `Likelihood/SparseVector.h`.

The element type is generic with decidable equality (`T` with `operator!=`);
`T(0)`, the value `std::vector<T>::resize` pads with, is the parameter `zero`.
The vector of pairs `m_data` is a list.  `std::lower_bound` / `std::upper_bound`
are modelled by their result on a range sorted by key (`dropWhile`); sortedness
is proved as an invariant of the class.
-/
namespace Verif.Sparse

variable {T : Type}

/-- The three data members, SparseVector.h:211-215. -/
structure SV (T : Type) where
  /-- `m_size` -/
  size : Nat
  /-- `m_null` -/
  null : T
  /-- `m_data` -/
  data : List (Nat × T)
  deriving Repr, DecidableEq

/-- Constructor `SparseVector(size_type n, T null)`, SparseVector.h:226-230. -/
def SV.mkNull (n : Nat) (null : T) : SV T := ⟨n, null, []⟩

/-- `test_value`, SparseVector.h:157. -/
def SV.testValue [DecidableEq T] (s : SV T) (v : T) : Bool := v ≠ s.null

/-- `lower_bound`, SparseVector.h:314-322: the tail starting at the first element
whose key is not less than `k`. -/
def SV.lowerBound (s : SV T) (k : Nat) : List (Nat × T) :=
  s.data.dropWhile (fun p => p.1 < k)

/-- `upper_bound`, SparseVector.h:324-332: the tail starting at the first element
whose key is greater than `k`. -/
def SV.upperBound (s : SV T) (k : Nat) : List (Nat × T) :=
  s.data.dropWhile (fun p => p.1 ≤ k)

/-- The elements visited by a loop from `lower_bound(first)` while the iterator
is `< upper_bound(last)`; used at SparseVector.h:382, 399 and 421-426. -/
def SV.rangeLU (s : SV T) (first last : Nat) : List (Nat × T) :=
  (s.lowerBound first).take ((s.lowerBound first).length - (s.upperBound last).length)

/-- `find`, SparseVector.h:298-312 (`none` is `end()`). -/
def SV.find (s : SV T) (k : Nat) : Option T :=
  match s.lowerBound k with
  | [] => none
  | p :: _ => if p.1 = k then some p.2 else none

/-- `operator[]`, SparseVector.h:256-260. -/
def SV.get (s : SV T) (n : Nat) : T :=
  match s.find n with
  | some v => v
  | none => s.null

/-- `nth_element`, SparseVector.h:262-266. -/
def SV.nthElement (s : SV T) (n : Nat) : T :=
  match s.data[n]? with
  | some p => p.2
  | none => s.null

/-- `nth_index`, SparseVector.h:142-145. -/
def SV.nthIndex (s : SV T) (n : Nat) : Int :=
  match s.data[n]? with
  | some p => (p.1 : Int)
  | none => -1

/-- `push_back`, SparseVector.h:268-274. -/
def SV.pushBack [DecidableEq T] (s : SV T) (v : T) : SV T :=
  { s with
    data := if s.testValue v then s.data ++ [(s.size, v)] else s.data
    size := s.size + 1 }

/-- `swap`, SparseVector.h:276-286: exchanges all three members. -/
def SV.swap (s o : SV T) : SV T × SV T :=
  (⟨o.size, o.null, o.data⟩, ⟨s.size, s.null, s.data⟩)

/-- `resize`, SparseVector.h:288-296.  When shrinking, the elements from
`lower_bound(n)` on are erased; `m_size` is *not* updated. -/
def SV.resize (s : SV T) (n : Nat) : SV T :=
  if s.size ≤ n then { s with size := n }
  else { s with data := s.data.take (s.data.length - (s.lowerBound n).length) }

/-- `clear`, SparseVector.h:115. -/
def SV.clear (s : SV T) : SV T := { s with data := [], size := 0 }

/-- `clear_data` / `set_to_null`, SparseVector.h:118, 160. -/
def SV.clearData (s : SV T) : SV T := { s with data := [] }

/-- `free_memory`, SparseVector.h:163-167. -/
def SV.freeMemory (s : SV T) : SV T := { s.clear with data := [] }

/-- The loop of `fill_from_vect`, SparseVector.h:341-345, with `idx` the running
index. -/
def fillLoop [DecidableEq T] (null : T) : Nat → List T → List (Nat × T)
  | _, [] => []
  | idx, v :: vs =>
    if v ≠ null then (idx, v) :: fillLoop null (idx + 1) vs
    else fillLoop null (idx + 1) vs

/-- `fill_from_vect`, SparseVector.h:334-346. -/
def SV.fillFromVect [DecidableEq T] (s : SV T) (v : List T) : Res (SV T) :=
  if s.size ≠ v.length then .throws
  else .ok { s with data := fillLoop s.null 0 v }

/-- Constructor from a vector, SparseVector.h:232-237. -/
def SV.ofVect [DecidableEq T] (v : List T) (null : T) : Res (SV T) :=
  (SV.mkNull v.length null).fillFromVect v

/-- `fill_from_map`, SparseVector.h:348-354; the `std::map` is its list of
entries in key order. -/
def SV.fillFromMap (s : SV T) (m : List (Nat × T)) : SV T := { s with data := m }

/-- `fill_from_key_and_value`, SparseVector.h:356-369 (`m_data` is cleared before
the size check). -/
def SV.fillFromKeyAndValue (s : SV T) (ks : List Nat) (vs : List T) : SV T × Res Unit :=
  if ks.length ≠ vs.length then ({ s with data := [] }, .throws)
  else ({ s with data := ks.zip vs }, .ok ())

/-- The assignment loop `vect[itr->first - off] = itr->second` over the given
elements, SparseVector.h:374-376 (`off = 0`) and 382-384.  The subtraction
cannot underflow on the elements the callers pass (keys `≥ first`); were it to,
the access would be out of range, hence the `ub`. -/
def assignAll (off : Nat) : List (Nat × T) → List T → Res (List T)
  | [], v => .ok v
  | p :: ps, v =>
    if p.1 < off then .ub
    else do
      let v' ← vset v (p.1 - off) p.2
      assignAll off ps v'

/-- `fill_vect(vect)`, SparseVector.h:371-377.  `zero` is `T()`. -/
def SV.fillVect (zero : T) (s : SV T) (vect : List T) : Res (List T) :=
  assignAll 0 s.data (vresize vect s.size zero)

/-- `fill_vect(vect, first, last)`, SparseVector.h:379-385.  `last < first`
would make `last-first` wrap to a huge size (exception from `resize`). -/
def SV.fillVectRange (zero : T) (s : SV T) (vect : List T) (first last : Nat) : Res (List T) :=
  if last < first then .throws
  else assignAll first (s.rangeLU first last) (vresize vect (last - first) zero)

/-- `fill_map(map)`, SparseVector.h:387-394; keys are visited in increasing order. -/
def SV.fillMap (s : SV T) : List (Nat × T) := s.data

/-- `fill_map(map, first, last)`, SparseVector.h:396-402. -/
def SV.fillMapRange (s : SV T) (first last : Nat) : List (Nat × T) :=
  (s.rangeLU first last).map (fun p => (p.1 - first, p.2))

/-- `fill_key_and_value(keys, values)`, SparseVector.h:404-415. -/
def SV.fillKeyAndValue (s : SV T) : List Nat × List T :=
  (s.data.map Prod.fst, s.data.map Prod.snd)

/-- The loop of the ranged `fill_key_and_value`, SparseVector.h:425-429: writes
`keys[idx-first]`; `idx` starts at 0, so `idx < first` underflows. -/
def keyValueLoop (first : Nat) : Nat → List (Nat × T) → List Nat → List T →
    Res (List Nat × List T)
  | _, [], ks, vs => .ok (ks, vs)
  | idx, p :: ps, ks, vs =>
    if idx < first then .ub
    else do
      let ks' ← vset ks (idx - first) p.1
      let vs' ← vset vs (idx - first) p.2
      keyValueLoop first (idx + 1) ps ks' vs'

/-- `fill_key_and_value(keys, values, first, last)`, SparseVector.h:417-430. -/
def SV.fillKeyAndValueRange (s : SV T) (first last : Nat) : Res (List Nat × List T) :=
  let r := s.rangeLU first last
  keyValueLoop first 0 r (List.replicate r.length 0) (List.replicate r.length s.null)

/-- The loop of `add_to_vect`, SparseVector.h:432-437. -/
def addAll [Add T] : List (Nat × T) → List T → Res (List T)
  | [], v => .ok v
  | p :: ps, v => do
    let old ← vget v p.1
    let v' ← vset v p.1 (old + p.2)
    addAll ps v'

/-- `add_to_vect`, SparseVector.h:432-437. -/
def SV.addToVect [Add T] (s : SV T) (v : List T) : Res (List T) := addAll s.data v

/-- The loop of `subtract_from_vect`, SparseVector.h:439-444. -/
def subAll [Sub T] : List (Nat × T) → List T → Res (List T)
  | [], v => .ok v
  | p :: ps, v => do
    let old ← vget v p.1
    let v' ← vset v p.1 (old - p.2)
    subAll ps v'

/-- `subtract_from_vect`, SparseVector.h:439-444. -/
def SV.subtractFromVect [Sub T] (s : SV T) (v : List T) : Res (List T) := subAll s.data v

/-- The mutating operations of the class, for histories. -/
inductive Op (T : Type) where
  | pushBack (v : T)
  | fillFromVect (v : List T)
  | clear
  | clearData
  | resize (n : Nat)
  | freeMemory

/-- One operation; a throwing operation leaves the object as it was
(`fill_from_vect` checks before it clears). -/
def step [DecidableEq T] (s : SV T) : Op T → SV T
  | .pushBack v => s.pushBack v
  | .fillFromVect v => match s.fillFromVect v with
    | .ok s' => s'
    | _ => s
  | .clear => s.clear
  | .clearData => s.clearData
  | .resize n => s.resize n
  | .freeMemory => s.freeMemory

/-- A history of operations. -/
def run [DecidableEq T] (s : SV T) (ops : List (Op T)) : SV T := ops.foldl step s

end Verif.Sparse
