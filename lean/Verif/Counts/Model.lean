import Verif.Basic
import Mathlib.Algebra.Order.Field.Basic
/-
Model of `src/BinnedCountsCache.cxx`.  The counts cube is a list of `ne * npix`
numbers, plane after plane; numbers are in an ordered field `K`.
-/
namespace Verif.Counts

variable {K : Type} [Field K] [LinearOrder K]

/-- `fillWeightedCounts`, BinnedCountsCache.cxx:105-127: loop over pixels (outer)
and energy planes (inner), writing `wts[k*npix+j]`; out-of-range accesses are
undefined. -/
def weightedCounts (ne npix : Nat) (data weights : List K) : Res (List K) :=
  loop (fun j wts =>
    loop (fun k wts => do
      let idx := k * npix + j
      let w ← vget weights idx
      let d ← vget data idx
      let isNull := w ≤ 0 ∨ d ≤ 0
      let w := if isNull then 0 else w
      vset wts idx (d * w)) 0 ne wts) 0 npix (List.replicate (ne * npix) 0)

/-- State of the loop in `identifyFilledPixels`: `i`, `m_filledPixels`,
`m_firstPixels`. -/
structure FillState where
  i : Nat
  filled : List Nat
  first : List Nat
  deriving DecidableEq

/-- `identifyFilledPixels`, BinnedCountsCache.cxx:131-145, on the (weighted) data
`d`. -/
def identifyFilled (ne npix : Nat) (d : List K) : Res (List Nat × List Nat) := do
  let s ← loop (fun k s => do
      let first ← vset s.first k s.filled.length
      loop (fun _ s => do
        let x ← vget d s.i
        let filled := if 0 < x then s.filled ++ [s.i % npix] else s.filled
        .ok { s with filled := filled, i := s.i + 1 }) 0 npix { s with first := first })
    0 ne (⟨0, [], List.replicate (ne + 1) 0⟩ : FillState)
  let first ← vset s.first ne s.filled.length
  .ok (s.filled, first)

/-- State of the counts-spectrum loops: `indx`, `ntot`, `ntot_wt`. -/
structure SpecAcc (K : Type) where
  indx : Nat
  ntot : K
  ntotWt : K

/-- Innermost statement, BinnedCountsCache.cxx:182-184 and 202-204. -/
def specBody (d dw : List K) (s : SpecAcc K) : Res (SpecAcc K) := do
  let x ← vget d s.indx
  let y ← vget dw s.indx
  .ok ⟨s.indx + 1, s.ntot + x, s.ntotWt + y⟩

/-- `computeCountsSpectrum_wcs`, BinnedCountsCache.cxx:170-190; `dw` is
`data(has_weights())`. -/
def countsSpectrumWcs (nx ny nz : Nat) (d dw : List K) : Res (List K × List K) := do
  let r ← loop (fun _ (s : Nat × List K × List K) => do
      let a ← loop (fun _ a => loop (fun _ a => specBody d dw a) 0 nx a) 0 ny ⟨s.1, 0, 0⟩
      .ok (a.indx, s.2.1 ++ [a.ntot], s.2.2 ++ [a.ntotWt])) 0 nz (0, [], [])
  .ok r.2

/-- `computeCountsSpectrum_healpix`, BinnedCountsCache.cxx:192-209; `nx` pixels per
plane, `ny` planes. -/
def countsSpectrumHealpix (nx ny : Nat) (d dw : List K) : Res (List K × List K) := do
  let r ← loop (fun _ (s : Nat × List K × List K) => do
      let a ← loop (fun _ a => specBody d dw a) 0 nx ⟨s.1, 0, 0⟩
      .ok (a.indx, s.2.1 ++ [a.ntot], s.2.2 ++ [a.ntotWt])) 0 ny (0, [], [])
  .ok r.2

/-! ### The cache object -/

/-- Data members, BinnedCountsCache.h:170-215 (HEALPix layout for the spectrum).
`wOrig` is the pointer `m_weightMap_orig`, `wMap` the pixel values of
`m_weightMap` (absent if null). -/
structure Cache (K : Type) where
  ne : Nat
  npix : Nat
  data : List K
  wOrig : Option Nat
  wMap : Option (List K)
  wCounts : Option (List K)
  filled : List Nat
  first : List Nat
  spec : List K
  specWt : List K
  deriving DecidableEq

/-- `data(weighted)`, BinnedCountsCache.h:96-101, with `weighted = has_weights()`. -/
def Cache.effData (c : Cache K) : List K :=
  match c.wCounts with
  | some w => w
  | none => c.data

/-- `identifyFilledPixels(); computeCountsSpectrum();` as called at
BinnedCountsCache.cxx:42-43, 55-56, 72-73. -/
def Cache.refresh (c : Cache K) : Res (Cache K) := do
  let wc ← match c.wMap with
    | none => .ok none
    | some w => do
      let x ← weightedCounts c.ne c.npix c.data w
      .ok (some x)
  let c := { c with wCounts := wc }
  let (filled, first) ← identifyFilled c.ne c.npix c.effData
  let (sp, spw) ← countsSpectrumHealpix c.npix c.ne c.data c.effData
  .ok { c with filled := filled, first := first, spec := sp, specWt := spw }

/-- Operations of the object; a weight map is given by its address, `none` is the
null pointer. -/
inductive Op (K : Type) where
  | setCountsMap (counts : List K)
  | setWeightsMap (ptr : Option Nat)
  | deleteOriginalWeightMap

/-- One call.  `wmapPixels ptr` are the pixel values computed by the `WeightMap`
constructor from the map at `ptr` (BinnedCountsCache.cxx:70).
`setCountsMap`: 51-57, `setWeightsMap`: 59-74 (returns at once when the pointer
is the remembered one), `deleteOriginalWeightMap`: 82-85. -/
def Cache.step (wmapPixels : Nat → List K) (c : Cache K) : Op K → Res (Cache K)
  | .setCountsMap counts =>
    if counts.length ≠ c.data.length then .throws
    else ({ c with data := counts } : Cache K).refresh
  | .setWeightsMap ptr =>
    if ptr = c.wOrig then .ok c
    else ({ c with wOrig := ptr, wMap := ptr.map wmapPixels } : Cache K).refresh
  | .deleteOriginalWeightMap => .ok { c with wOrig := none }

/-- Constructor, BinnedCountsCache.cxx:20-44 (weights built from the map, not read
from a file). -/
def Cache.mk' (wmapPixels : Nat → List K) (ne npix : Nat) (data : List K) (ptr : Option Nat) :
    Res (Cache K) :=
  ({ ne := ne, npix := npix, data := data, wOrig := ptr, wMap := ptr.map wmapPixels,
     wCounts := none, filled := [], first := [], spec := [], specWt := [] } : Cache K).refresh

/-- A history of calls; an exception leaves the object unchanged (the only throw
is before any change). -/
def Cache.run (wmapPixels : Nat → List K) (c : Cache K) : List (Op K) → Res (Cache K)
  | [] => .ok c
  | op :: ops => match c.step wmapPixels op with
    | .ok c' => Cache.run wmapPixels c' ops
    | .throws => Cache.run wmapPixels c ops
    | .ub => .ub

end Verif.Counts
