import Verif.Basic
import Verif.Sparse.Model
import Verif.Edisp.Model
import Mathlib.Algebra.Field.Basic
/-
Model of adding a source map to, and subtracting it from, a vector
(`SourceMap::addToVector`, `subtractFromVector`), and of `SourceMapCache::computeModelMap`.
Numbers are elements of a field; sizes and positions are unbounded.
-/
namespace Verif.AddMap
open Verif.Sparse

/-- The members of a `SourceMap` the functions below use, SourceMap.h:415-520. -/
structure SMap (K : Type) where
  /-- `m_dataCache->num_pixels()` -/
  npix : Nat
  /-- `n_energies()` -/
  nE : Nat
  /-- `m_mapType == HPX_Sparse` -/
  isSparse : Bool
  /-- `m_model` -/
  model : List K
  /-- `m_sparseModel` -/
  sparse : SV K
  /-- `m_specVals`, spectrum values as last computed -/
  specVals : List K
  /-- the spectrum of the source now, at the energies of the map: what `setSpectralValues`
  stores -/
  current : List K
  /-- what `readModel` or `make_model` would give -/
  stored : List K

variable {K : Type} [Field K] [DecidableEq K]

/-- `setSpectralValues`, SourceMap.cxx:405-415, of a map with a source. -/
def SMap.setSpec (s : SMap K) : SMap K := { s with specVals := s.current }

/-- `model()`, SourceMap.cxx:448-460: an empty model is read or made again, which also
recomputes the spectrum values (:596-637, :697-739).  A failure to do so is not modelled. -/
def SMap.reload (s : SMap K) : SMap K :=
  if s.model.length = 0 then { s with model := s.stored, specVals := s.current } else s

/-- `includeSpec ? m_specVals[ie] : 1.`, SourceMap.cxx:757. -/
def factor (specVals : List K) (includeSpec : Bool) (ie : Nat) : Res K :=
  if includeSpec then vget specVals ie else .ok 1

/-- `vect[i] += x` or `vect[i] -= x`. -/
def put (sub : Bool) (v : List K) (i : Nat) (x : K) : Res (List K) := do
  let a ← vget v i
  vset v i (if sub then a - x else a + x)

/-- The loops over planes and pixels, SourceMap.cxx:754-761 and 805-812; `kmin` is the first
plane and `n` the number of planes. -/
def denseLoop (sub : Bool) (s : SMap K) (includeSpec : Bool) (kmin n : Nat) (vect : List K) : Res (List K) :=
  loop (fun k v => do
    let f ← factor s.specVals includeSpec (kmin + k)
    loop (fun p v => do
      let m ← vget s.model ((kmin + k) * s.npix + p)
      put sub v (k * s.npix + p) (m * f)) 0 s.npix v) 0 n vect

/-- `kmax < 0 ? n_energies() : kmax`, SourceMap.cxx:745. -/
def SMap.kmax (s : SMap K) (kmax : Int) : Int := if kmax < 0 then s.nE else kmax

/-- `vect.size() != nval`, SourceMap.cxx:746-748.  The product is taken as an integer;
in the code a negative one wraps around to a size no vector has. -/
def SMap.wrongSize (s : SMap K) (vect : List K) (kmin kmax : Int) : Bool :=
  decide ((vect.length : Int) ≠ (s.kmax kmax - kmin) * s.npix)

/-- `addToVector_full`, SourceMap.cxx:741-762. -/
def SMap.addFull (s : SMap K) (vect : List K) (includeSpec : Bool) (kmin kmax : Int) : Res (SMap K × List K) :=
  let s := s.reload
  if s.wrongSize vect kmin kmax then .throws
  else if includeSpec ∧ s.specVals.length ≠ s.nE then .throws
  else if kmin < 0 then .ub
  else do
    let v ← denseLoop false s includeSpec kmin.toNat (s.kmax kmax - kmin).toNat vect
    .ok (s, v)

/-- `subtractFromVector_full`, SourceMap.cxx:792-813. -/
def SMap.subFull (s : SMap K) (vect : List K) (includeSpec : Bool) (kmin kmax : Int) : Res (SMap K × List K) :=
  let s := s.reload
  if s.wrongSize vect kmin kmax then .throws
  else if kmin < 0 then .ub
  else
    let s := if includeSpec then s.setSpec else s
    do
      let v ← denseLoop true s includeSpec kmin.toNat (s.kmax kmax - kmin).toNat vect
      .ok (s, v)

/-- The loop over the stored elements, SourceMap.cxx:780-789 and 831-835; `f` gives the factor
for the plane of an element. -/
def sparseLoop (sub : Bool) (f : Nat → Res K) (npix offset : Nat) : List (Nat × K) → List K → Res (List K)
  | [], v => .ok v
  | e :: es, v => do
    let x ← f (e.1 / npix)
    if e.1 < offset then .ub
    else do
      let v ← put sub v (e.1 - offset) (e.2 * x)
      sparseLoop sub f npix offset es v

/-- The factor in `addToVector_sparse`, SourceMap.cxx:781-787.  Without the spectrum `ie` is -1,
which the comparison with a size converts to the largest `size_t`, so that the test always
fails. -/
def addFactor (specVals : List K) (includeSpec : Bool) (ie : Nat) : Res K :=
  if includeSpec then
    if specVals.length ≤ ie then .throws else vget specVals ie
  else .throws

/-- `addToVector_sparse`, SourceMap.cxx:764-790. -/
def SMap.addSparse (s : SMap K) (vect : List K) (includeSpec : Bool) (kmin kmax : Int) : Res (SMap K × List K) :=
  if s.wrongSize vect kmin kmax then .throws
  else
    let s := if includeSpec then s.setSpec else s
    if kmin < 0 then .ub
    else do
      let first := kmin.toNat * s.npix
      let v ← sparseLoop false (addFactor s.specVals includeSpec) s.npix first
        (s.sparse.rangeLU first ((s.kmax kmax).toNat * s.npix)) vect
      .ok (s, v)

/-- `subtractFromVector_sparse`, SourceMap.cxx:816-836. -/
def SMap.subSparse (s : SMap K) (vect : List K) (includeSpec : Bool) (kmin kmax : Int) : Res (SMap K × List K) :=
  if s.wrongSize vect kmin kmax then .throws
  else if includeSpec ∧ s.specVals.length ≠ s.nE then .throws
  else if kmin < 0 then .ub
  else do
    let first := kmin.toNat * s.npix
    let v ← sparseLoop true (factor s.specVals includeSpec) s.npix first
      (s.sparse.rangeLU first ((s.kmax kmax).toNat * s.npix)) vect
    .ok (s, v)

/-- `addToVector`, SourceMap.cxx:509-520. -/
def SMap.addToVector (s : SMap K) (vect : List K) (includeSpec : Bool) (kmin kmax : Int) : Res (SMap K × List K) :=
  if s.isSparse then s.addSparse vect includeSpec kmin kmax else s.addFull vect includeSpec kmin kmax

/-- `subtractFromVector`, SourceMap.cxx:522-533. -/
def SMap.subtractFromVector (s : SMap K) (vect : List K) (includeSpec : Bool) (kmin kmax : Int) :
    Res (SMap K × List K) :=
  if s.isSparse then s.subSparse vect includeSpec kmin kmax else s.subFull vect includeSpec kmin kmax

/-- `SourceMapCache::fillSummedSourceMap`, SourceMapCache.cxx:421-429, for the maps of the
sources. -/
def fillSummed (vect : List K) (kmin kmax : Int) : List (SMap K) → Res (List K)
  | [] => .ok vect
  | s :: ss => do
    let (_, v) ← s.addToVector vect true kmin kmax
    fillSummed v kmin kmax ss

end Verif.AddMap
