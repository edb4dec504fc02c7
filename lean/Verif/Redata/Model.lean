import Verif.Binned.Model
/-
Calls of the binned likelihood that replace the counts, the weights or the map of a source,
`src/BinnedLikelihood.cxx`, `src/SourceMapCache.cxx` and `src/SourceMap.cxx`, on top of the model of the
likelihood in `Verif.Binned`.  What `BinnedCountsCache` makes of new counts or weights (`Verif.Counts`) is the
new `Env`; none of these calls changes `m_model` or `m_modelIsCurrent`.
-/
namespace Verif.Redata

open Verif.Binned Verif.StdMap

variable {ν : Type} [LinearOrder ν]

/-- `BinnedLikelihood::setCountsMap`, BinnedLikelihood.cxx:148-152; `e` is what the counts are afterwards. -/
noncomputable def setCounts (e : Env) (st : St ν) : Res (St ν) := buildFixed e st

/-- `SourceMap::setWeights`, SourceMap.cxx:562-565 (the npred arrays are recomputed where they are needed). -/
def reweight (w : Option (List ℝ)) (m : MapObj) : MapObj := { m with map := { m.map with weights := w } }

/-- `BinnedLikelihood::setWeightsMap`, BinnedLikelihood.cxx:154-158 and SourceMapCache.cxx:410-419. -/
noncomputable def setWeights (e : Env) (st : St ν) : Res (St ν) :=
  buildFixed e { st with maps := st.maps.map (fun x => (x.1, reweight e.weights x.2)) }

/-- `loadSourceMap` with `recreate` and `buildFixedWeights`, BinnedLikelihood.cxx:440-451 and
SourceMapCache.cxx:222-245; an unknown source makes `source()` throw. -/
noncomputable def recreate (e : Env) (st : St ν) (n : ν) : Res (St ν) :=
  match find st.srcs n with
  | none => .throws
  | some σ => do
    let m ← newMap e st.cacheEv σ
    let st := st.putMap n m
    if n ∈ st.fixedNames then buildFixed e st else .ok st

/-- The map that `setSourceMapImage` changes, SourceMapCache.cxx:251-254. -/
noncomputable def mapFor (e : Env) (st : St ν) (n : ν) (σ : Src) : Res (St ν × MapObj) :=
  match find st.maps n with
  | some m => .ok (st, m)
  | none => getMap e st n σ

/-- `setSourceMapImage`, BinnedLikelihood.cxx:453-457, SourceMapCache.cxx:248-256 and `SourceMap::setImage`,
SourceMap.cxx:552-560 (without phased exposures). -/
noncomputable def setImage (e : Env) (st : St ν) (n : ν) (img : List ℝ) : Res (St ν) :=
  match find st.srcs n with
  | none => .throws
  | some σ => do
    let (st, m) ← mapFor e st n σ
    if img.length ≠ m.map.model.length ∧ m.map.model.length ≠ 0 then .throws
    else .ok (st.putMap n { m with map := { m.map with model := img } })

end Verif.Redata
