import Verif.Basic
import Verif.StdMap
import Verif.Accum.Model
import Verif.Merge.Types
/-
Model of the merging of sources into composite sources and of the splitting of these:
`SourceModel::mergeSources`, `splitCompositeSource`, `give_source` (src/SourceModel.cxx:263-315),
`CompositeSource::steal_source`, `give_source`, `addSource` (src/CompositeSource.cxx:58-69, 218-244)
and the parts of `BinnedLikelihood::addSource`, `deleteSource` (src/BinnedLikelihood.cxx:323-372) and
of the cache of source maps (src/SourceMapCache.cxx) that matter for them.

A source map is represented by the identifications of the sources that are in it.  Maps are
computed, not read from a file, every source has one (`computePointSources`), they are kept
(`save_all_srcmaps`, no `delete_local_fixed`), and fixed sources go into one map
(`use_single_fixed_map`).  What the calls
do to the sum of the fixed sources is in Verif.Binned.
-/
namespace Verif.Merge
open Verif.StdMap (find put erase keys)

variable {ν : Type}

/-- State of a source model (`binned = false`) or of a binned likelihood object: sources and
source maps by name. -/
structure St (ν : Type) where
  srcs : List (ν × Src ν)
  maps : List (ν × List Nat)
  binned : Bool

section
variable [LinearOrder ν]

mutual
/-- The source map of a source, as `createSourceMap` makes it (SourceMapCache.cxx:151-155); for a
composite source the sum of the maps of its parts, CompositeSource.cxx:255-270,
SourceMapCache.cxx:421-429. -/
def mapOf : Src ν → List Nat
  | .leaf id _ => [id]
  | .comp _ parts cache => mapParts (cache.getD []) parts
/-- Sum over the parts: a map in the cache of the composite source is used as it is, others are
made (`getSourceMap`, SourceMapCache.cxx:112-148). -/
def mapParts (c : List (ν × List Nat)) : List (ν × Src ν) → List Nat
  | [] => []
  | (n, s) :: ps => (match find c n with | some m => m | none => mapOf s) ++ mapParts c ps
end

mutual
/-- What making its map does to a source: a composite source gets a cache with the maps of all
parts (PSFUtils.cxx:1143-1148). -/
def fill : Src ν → Src ν
  | .leaf id f => .leaf id f
  | .comp f parts cache => .comp f (fillParts (cache.getD []) parts) (some (fillCache (cache.getD []) parts))
/-- The parts the maps of which were made. -/
def fillParts (c : List (ν × List Nat)) : List (ν × Src ν) → List (ν × Src ν)
  | [] => []
  | (n, s) :: ps => (n, match find c n with | some _ => s | none => fill s) :: fillParts c ps
/-- The maps of the parts. -/
def fillCache (c : List (ν × List Nat)) : List (ν × Src ν) → List (ν × List Nat)
  | [] => []
  | (n, s) :: ps => (n, match find c n with | some m => m | none => mapOf s) :: fillCache c ps
end

/-- Put the source into the model and fetch its map: `loadSourceMap` / `addFixedSource` with
`getSourceMap`, SourceMapCache.cxx:112-148, 222-245, BinnedLikelihood.cxx:326-333: a map with the
name of the source in the cache is used as it is. -/
def load (st : St ν) (n : ν) (s : Src ν) : St ν :=
  match find st.maps n with
  | some _ => { st with srcs := put st.srcs n s }
  | none => { st with srcs := put st.srcs n (fill s), maps := put st.maps n (mapOf s) }

/-- `addSource` without cloning: SourceModel.cxx:197-206, BinnedLikelihood.cxx:323-339.  A fixed
source ignores the map given. -/
def addSource (st : St ν) (n : ν) (s : Src ν) (m : Option (List Nat)) : St ν × Res Unit :=
  if n ∈ keys st.srcs then (st, .throws)
  else if st.binned = false then ({ st with srcs := put st.srcs n s }, .ok ())
  else if fixed s then (load st n s, .ok ())
  else
    match m with
    | none => (load st n s, .ok ())
    | some m => ({ st with srcs := put st.srcs n s, maps := put (erase st.maps n) n m }, .ok ())

/-- `CompositeSource::steal_source` for the sources one after the other, CompositeSource.cxx:218-229
with `addSource` :58-69; `parts` and `cache` are those of the composite source.  The source is
taken from the model before its map is looked for. -/
def stealAll : List ν → St ν → List (ν × Src ν) → List (ν × List Nat) →
    St ν × Res (List (ν × Src ν) × List (ν × List Nat))
  | [], st, parts, cache => (st, .ok (parts, cache))
  | n :: ns, st, parts, cache =>
    match find st.srcs n with
    | none => (st, .throws)
    | some s =>
      if st.binned then
        match find st.maps n with
        | none => ({ st with srcs := erase st.srcs n }, .throws)
        | some m =>
          if n ∈ keys parts ∨ n ∈ keys cache then
            ({ st with srcs := erase st.srcs n, maps := erase st.maps n }, .throws)
          else
            stealAll ns { st with srcs := erase st.srcs n, maps := erase st.maps n }
              (put parts n s) (put cache n m)
      else if n ∈ keys parts then ({ st with srcs := erase st.srcs n }, .throws)
      else stealAll ns { st with srcs := erase st.srcs n } (put parts n s) cache

/-- `mergeSources`: SourceModel.cxx:305-315; a binned likelihood gives the composite source a cache
(`initialize_composite`, BinnedLikelihood.cxx:993-995). -/
def merge (st : St ν) (c : ν) (ns : List ν) (f : Bool) : St ν × Res Unit :=
  match stealAll ns st [] [] with
  | (st', .ok (parts, cache)) =>
    addSource st' c (.comp f parts (if st.binned then some cache else none)) none
  | (st', .throws) => (st', .throws)
  | (st', .ub) => (st', .ub)

/-- `CompositeSource::give_source` for the parts one after the other, CompositeSource.cxx:231-244,
SourceModel.cxx:294-303.  (The maps given are taken out of the cache, but the composite source is
deleted afterwards.) -/
def giveAll (cache : Option (List (ν × List Nat))) :
    List (ν × Src ν) → St ν → St ν × Res Unit
  | [], st => (st, .ok ())
  | (n, s) :: ps, st =>
    match cache with
    | none =>
      match addSource st n s none with
      | (st', .ok ()) => giveAll cache ps st'
      | other => other
    | some ch =>
      match find ch n with
      | none => (st, .throws)
      | some m =>
        match addSource st n s (some m) with
        | (st', .ok ()) => giveAll cache ps st'
        | other => other

/-- `splitCompositeSource`: SourceModel.cxx:263-281.  The source is taken from the model before it
is found out whether it is composite. -/
def split (st : St ν) (c : ν) : St ν × Res Unit :=
  match find st.srcs c with
  | none => (st, .throws)
  | some (.leaf _ _) => ({ st with srcs := erase st.srcs c }, .throws)
  | some (.comp _ parts cache) => giveAll cache parts { st with srcs := erase st.srcs c }

/-- One call. -/
def step (st : St ν) : Op ν → St ν × Res Unit
  | .merge c ns f => merge st c ns f
  | .split c => split st c

/-- Calls that all succeed. -/
def run (st : St ν) : List (Op ν) → Option (St ν)
  | [] => some st
  | op :: ops =>
    match step st op with
    | (st', .ok ()) => run st' ops
    | _ => none

end

/-! ### Flux densities -/

/-- `fluxDensity` of a part: PointSource.cxx:79-118, DiffuseSource.cxx:133-155; the cache for the
response is absent (`none`), empty or filled.  Only point sources look at it. -/
noncomputable def partFlux (c : Option (Option ℝ)) : Part → ℝ × Option (Option ℝ)
  | .point s r =>
    match c with
    | none => (s * r, none)
    | some none => (s * r, some (some r))
    | some (some r') => (s * r', some (some r'))
  | .diffuse s r => (s * r, c)

/-- The loop over the parts: CompositeSource.cxx:93-96; all parts get the same cache. -/
noncomputable def fluxSum : List Part → Accum.Kahan → Option (Option ℝ) →
    Accum.Kahan × Option (Option ℝ)
  | [], a, c => (a, c)
  | p :: ps, a, c => fluxSum ps (a.add (partFlux c p).1) (partFlux c p).2

/-- `CompositeSource::fluxDensity`: CompositeSource.cxx:88-101, given the value of the spectrum. -/
noncomputable def fluxDensity (spec : ℝ) (parts : List Part) (c : Option (Option ℝ)) :
    ℝ × Option (Option ℝ) :=
  ((fluxSum parts Accum.Kahan.init c).1.total.2 * spec, (fluxSum parts Accum.Kahan.init c).2)

/-- The two sums of `fluxDensityDeriv`: CompositeSource.cxx:123-131. -/
noncomputable def derivSums (a : Accum.Kahan × Accum.Kahan) (v : ℝ) : Accum.Kahan × Accum.Kahan :=
  open Classical in if 0 < v then (a.1.add v, a.2) else (a.1, a.2.add (-v))

/-- `CompositeSource::fluxDensityDeriv`: CompositeSource.cxx:118-135, given the value of the
spectrum and the derivatives of the parts with respect to the parameters of the name in them; a
part without such a parameter throws. -/
noncomputable def fluxDensityDeriv (spec : ℝ) (parts : List (String → Res ℝ)) (par : String) :
    Res ℝ := do
  let vs ← parts.mapM (fun d => d par)
  let a := vs.foldl derivSums (Accum.Kahan.init, Accum.Kahan.init)
  .ok ((a.1.total.2 - a.2.total.2) * spec)

end Verif.Merge
