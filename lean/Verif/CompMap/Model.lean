import Verif.CompMap.Types
import Verif.Energy.Model

/-!
# Source maps of composite sources: the program

`double` and `float` are `ℝ`.  `ph` is the map for a range of phases, if the observation has one:
its value at the direction of a pixel and an energy.
-/

namespace Verif.CompMap

open Verif.Vec

/-- `applyPhasedExposureMap`, SourceMap.cxx:344-362, of a full map.  The two loops, over energies
and pixels, are written as one. -/
noncomputable def phase (ph : Option (ℕ → ℕ → ℝ)) (nE npix : ℕ) (m : List ℝ) : Res (List ℝ) :=
  match ph with
  | none => .ok m
  | some φ =>
    loop (fun idx m => do
      let x ← vget m idx
      vset m idx (x * φ (idx / npix) (idx % npix))) 0 (nE * npix) m

/-- `m_npreds` as `computeNpredArray` makes them, SourceMap.cxx:240-265. -/
noncomputable def npreds (nE npix : ℕ) (m : List ℝ) : Res (List ℝ) :=
  (List.range nE).mapM (fun k =>
    loop (fun j a => do
      let x ← vget m (k * npix + j)
      .ok (a + x)) 0 npix 0)

/-- A map just made, with its predicted numbers. -/
structure Made where
  map : AddMap.SMap ℝ
  npred : List ℝ

/-- The end of `make_model`, SourceMap.cxx:728-736, for an image made by `makeCompositeMap`: the
map for a range of phases, the predicted numbers, the spectrum.  The map is not sparse
(PSFUtils.cxx:1133-1144). -/
noncomputable def finish (ph : Option (ℕ → ℕ → ℝ)) (nE npix : ℕ) (spec img : List ℝ) : Res Made := do
  let m ← phase ph nE npix img
  let n ← npreds nE npix m
  .ok ⟨⟨npix, nE, false, m, ⟨0, 0, []⟩, spec, spec, m⟩, n⟩

mutual
/-- The source map of a source of a composite source: `getSourceMap`, SourceMapCache.cxx:112-148;
for a composite source `make_model`, SourceMap.cxx:697-739, with `makeCompositeMap`,
PSFUtils.cxx:1119-1152. -/
noncomputable def mapOf (ph : Option (ℕ → ℕ → ℝ)) (numE npix : ℕ) : Src → Res (AddMap.SMap ℝ)
  | .leaf s => .ok s
  | .comp bins spec parts => do
    let img ← fillParts ph numE npix (List.replicate (numE * npix) 0) parts
    let r ← finish ph (numE + 2 * bins) npix spec img
    .ok r.map
/-- `SourceMapCache::fillSummedSourceMap`, SourceMapCache.cxx:421-429. -/
noncomputable def fillParts (ph : Option (ℕ → ℕ → ℝ)) (numE npix : ℕ) (v : List ℝ) :
    List Src → Res (List ℝ)
  | [] => .ok v
  | p :: ps => do
    let s ← mapOf ph numE npix p
    let r ← s.addToVector v true 0 (-1)
    fillParts ph numE npix r.2 ps
end

/-- `make_model` of a composite source with `CompositeSource::fillSummedSourceMap`,
CompositeSource.cxx:255-267: the vector has room for the energies of the data
(BinnedCountsCache.h:81), whatever energies the map of the composite source has. -/
noncomputable def makeComp (ph : Option (ℕ → ℕ → ℝ)) (numE npix bins : ℕ) (spec : List ℝ)
    (parts : List Src) : Res Made := do
  let img ← fillParts ph numE npix (List.replicate (numE * npix) 0) parts
  finish ph (numE + 2 * bins) npix spec img

/-- `get_edisp_constants`, FitUtils.cxx:1946-1968, for a map without additional energies: one
without energy dispersion, the correction of the bin with the old kind of it.  (Bins without
counts, for which a reference bin is used, are not modelled.) -/
noncomputable def xiOf (edisp : ℤ) (corr : List ℝ) (k : ℕ) : Res ℝ :=
  if edisp = 0 then .ok 1 else vget corr k

/-- `model_counts_contribution`, FitUtils.cxx:1983-1993, with the weights of `setSpectralValues`,
SourceMap.cxx:405-407: counts in an energy bin and a pixel. -/
noncomputable def pixelCounts (s : AddMap.SMap ℝ) (energies ratios : List ℝ) (xi : ℝ) (k i : ℕ) :
    Res ℝ := do
  let w ← Energy.spectralWeights s.specVals energies ratios
  let a ← vget s.model (k * s.npix + i)
  let b ← vget s.model (k * s.npix + i + s.npix)
  let p ← vget w k
  .ok (xi * (a * p.1 + b * p.2))

/-- `npred_contribution`, FitUtils.cxx:1995-2010: the predicted number in an energy bin. -/
noncomputable def npredCounts (s : AddMap.SMap ℝ) (npred energies ratios : List ℝ) (xi : ℝ) (k : ℕ) :
    Res ℝ := do
  let w ← Energy.spectralWeights s.specVals energies ratios
  let a ← vget npred k
  let b ← vget npred (k + 1)
  let p ← vget w k
  .ok (xi * (a * p.1) + xi * (b * p.2))

end Verif.CompMap
