import Verif.Basic
import Verif.StdMap
import Verif.WtOwn.Types

/-!
# Weights maps and their users: the code

The library of maps (src/WcsMapLibrary.cxx), the weights maps of likelihood objects
(src/BinnedCountsCache.cxx, src/SourceMapCache.cxx, src/BinnedLikelihood.cxx), the source maps that
point to them (src/SourceMap.cxx), those of the parts of composite sources
(src/CompositeSource.cxx), and the map for a range of phases held by `AppHelpers`
(src/AppHelpers.cxx).

A map is represented by its values, `W`; the projection of a weights map on the pixels of the data
(`WeightMap`) by the values it was made of.  The allocator `al` picks a free address for a map that
is read.  Simplified: all sources are free; there are no weights in the source maps file; the files
can be read; the address of a `WeightMap` is not used again; the source map of a composite source
that was split is not kept (it is kept, with the weights of the others).
-/

namespace Verif.WtOwn

open Verif.StdMap (find put erase)

/-- What matters of a `SourceMap`: the likelihood object that made it, the pointer `m_weights`
(SourceMap.h:460), and the weights in the sums `m_weighted_npreds`. -/
structure SMap (W : Type) where
  like : ℕ
  ptr : Option ℕ
  used : Option W

/-- What matters of a likelihood object: `m_weightMap_orig` and `m_weightMap`
(BinnedCountsCache.h:191-194) and the sources with their maps. -/
structure Like (ν : Type) where
  orig : Option ℕ
  wt : Option ℕ
  srcs : List (Tree ν)

/-- The maps in memory (`none` once freed), the library, the `WeightMap`s, the source maps, the
variables of the client, the likelihood objects and the `AppHelpers` objects (`none` once
destroyed). -/
structure St (F W ν : Type) where
  pm : List (Option W)
  lib : List (F × ℕ)
  wm : List (Option W)
  smap : ℕ → Option (SMap W)
  next : ℕ
  vars : List ℕ
  likes : List (Like ν)
  helpers : List (Option (Option ℕ))

variable {F W ν : Type}

/-- At the start there is nothing. -/
def St.empty : St F W ν := ⟨[], [], [], fun _ => none, 0, [], [], []⟩

/-- Reading through a pointer. -/
def deref (h : List (Option W)) (p : ℕ) : Res W :=
  match h[p]? with
  | some (some w) => .ok w
  | _ => .ub

/-- `delete`. -/
def free (h : List (Option W)) (p : ℕ) : Res (List (Option W)) :=
  match h[p]? with
  | some (some _) => .ok (h.set p none)
  | _ => .ub

/-- Reading the weights, SourceMap.cxx:270, 332: one without a weights map. -/
def readWts (h : List (Option W)) : Option ℕ → Res (Option W)
  | none => .ok none
  | some q =>
    match deref h q with
    | .ok w => .ok (some w)
    | .throws => .throws
    | .ub => .ub

/-- `delete m_weightMap`, BinnedCountsCache.cxx:65. -/
def freeWts (h : List (Option W)) : Option ℕ → Res (List (Option W))
  | none => .ok h
  | some q => free h q

section
variable [LinearOrder F]

/-- `WcsMapLibrary::wcsmap`, WcsMapLibrary.cxx:36-65. -/
def fetch (disk : F → W) (al : List Bool → ℕ) (s : St F W ν) (f : F) : St F W ν × ℕ :=
  match find s.lib f with
  | some p => (s, p)
  | none =>
    ({ s with
        pm := (s.pm ++ [none]).set (al (s.pm.map Option.isSome)) (some (disk f))
        lib := put s.lib f (al (s.pm.map Option.isSome)) }, al (s.pm.map Option.isSome))

/-- `deleteOriginalWeightMap`, BinnedCountsCache.cxx:82-85, with `delete_map` by pointer,
WcsMapLibrary.cxx:84-92. -/
def dropOrig (s : St F W ν) : Option ℕ → Res (St F W ν)
  | none => .ok s
  | some p =>
    match s.lib.find? (fun x => x.2 == p) with
    | none => .ok s
    | some x =>
      match free s.pm p with
      | .ok pm => .ok { s with pm := pm, lib := erase s.lib x.1 }
      | .throws => .throws
      | .ub => .ub

/-- `new WeightMap(*wmap, …)`, BinnedCountsCache.cxx:33-41, 66-71. -/
def makeWts (s : St F W ν) : Option ℕ → Res (St F W ν × Option ℕ)
  | none => .ok (s, none)
  | some p =>
    match deref s.pm p with
    | .ok w => .ok ({ s with wm := s.wm ++ [some w] }, some s.wm.length)
    | .throws => .throws
    | .ub => .ub

/-- The pointer in a variable of the client; the null pointer. -/
def var (s : St F W ν) : Option ℕ → Res (Option ℕ)
  | none => .ok none
  | some v =>
    match s.vars[v]? with
    | some p => .ok (some p)
    | none => .throws

/-- The likelihood object `i`. -/
def like (s : St F W ν) (i : ℕ) : Res (Like ν) :=
  match s.likes[i]? with
  | some o => .ok o
  | none => .throws

/-- The constructor, BinnedLikelihood.cxx:115-142 with BinnedCountsCache.cxx:21-44. -/
def newLike (s : St F W ν) (v : Option ℕ) (drop : Bool) : Res (St F W ν) := do
  let p ← var s v
  let r ← makeWts s p
  let s' ← if drop = true then dropOrig r.1 p else .ok r.1
  .ok { s' with likes := s'.likes ++ [⟨if drop = true then none else p, r.2, []⟩] }

/-- `setWeights` of the source maps in the cache: SourceMapCache.cxx:413-418, SourceMap.cxx:562-565.
The maps of the parts of composite sources are in other caches. -/
def setWts (s : St F W ν) (i : ℕ) (ts : List (Tree ν)) (q : Option ℕ) (w : Option W) :
    ℕ → Option (SMap W) :=
  fun id => if id ∈ ts.map Tree.id then some ⟨i, q, w⟩ else s.smap id

/-- `setWeightsMap`, BinnedLikelihood.cxx:154-158, SourceMapCache.cxx:410-419,
BinnedCountsCache.cxx:59-74. -/
def setWeights (s : St F W ν) (i : ℕ) (v : Option ℕ) : Res (St F W ν) := do
  let o ← like s i
  let p ← var s v
  if p = o.orig then .ok s
  else do
    let wm ← freeWts s.wm o.wt
    let r ← makeWts { s with wm := wm } p
    let w ← readWts r.1.wm r.2
    .ok { r.1 with smap := setWts s i o.srcs r.2 w, likes := s.likes.set i ⟨p, r.2, o.srcs⟩ }

/-- A new source map, SourceMap.cxx:76-110 with `createSourceMap`, SourceMapCache.cxx:151-155: it
gets the weights of the object and makes its sums. -/
def newMap (s : St F W ν) (i : ℕ) (o : Like ν) : Res (ℕ → Option (SMap W)) :=
  match readWts s.wm o.wt with
  | .ok w => .ok (fun id => if id = s.next then some ⟨i, o.wt, w⟩ else s.smap id)
  | .throws => .throws
  | .ub => .ub

/-- The likelihood object with other sources, of which one has a new map. -/
def withNew (s : St F W ν) (i : ℕ) (o : Like ν) (ts : Option (List (Tree ν))) :
    Res (St F W ν) :=
  match ts with
  | none => .throws
  | some ts => do
    let m ← newMap s i o
    .ok { s with smap := m, next := s.next + 1, likes := s.likes.set i { o with srcs := ts } }

/-- The source map of a source of the object, SourceMapCache.cxx:112-124. -/
def mapOf [DecidableEq ν] (s : St F W ν) (i : ℕ) (n : ν) : Res (ℕ × SMap W) := do
  let o ← like s i
  match look n o.srcs with
  | none => .throws
  | some t =>
    match s.smap t.id with
    | none => .ub
    | some m => .ok (t.id, m)

/-- One call, and what is seen.
`add`: BinnedLikelihood.cxx:323-339.  `merge`: SourceModel.cxx:305-315 with
CompositeSource.cxx:58-69, 218-229; the source maps go into the cache of the composite source.
`split`: SourceModel.cxx:263-281 with CompositeSource.cxx:231-244; they come back as they are.
`sums`: `weighted_npreds`, SourceMap.cxx:493-498.  `image`: `setImage`, SourceMap.cxx:552-560.
`helper`: AppHelpers.cxx:145-152; `phase`: SourceMap.cxx:344-362; `endHelper`:
AppHelpers.cxx:206, the library is not told. -/
def step [DecidableEq ν] (disk : F → W) (al : List Bool → ℕ) (s : St F W ν) :
    Op F ν → Res (St F W ν × Option (Option W))
  | .get f =>
    .ok ({ (fetch disk al s f).1 with vars := s.vars ++ [(fetch disk al s f).2] }, none)
  | .new v drop => do
    let s' ← newLike s v drop
    .ok (s', none)
  | .weights i v => do
    let s' ← setWeights s i v
    .ok (s', none)
  | .add i n => do
    let o ← like s i
    let s' ← withNew s i o (insert (.node n false s.next []) o.srcs)
    .ok (s', none)
  | .merge i c ns => do
    let o ← like s i
    let s' ← withNew s i o (mergeT c ns s.next o.srcs)
    .ok (s', none)
  | .split i c => do
    let o ← like s i
    match splitT c o.srcs with
    | none => .throws
    | some ts => .ok ({ s with likes := s.likes.set i { o with srcs := ts } }, none)
  | .sums i n => do
    let m ← mapOf s i n
    .ok (s, some m.2.used)
  | .image i n => do
    let m ← mapOf s i n
    let w ← readWts s.wm m.2.ptr
    .ok ({ s with smap := fun id => if id = m.1 then some ⟨m.2.like, m.2.ptr, w⟩ else s.smap id },
      none)
  | .helper none => .ok ({ s with helpers := s.helpers ++ [some none] }, none)
  | .helper (some f) =>
    .ok ({ (fetch disk al s f).1 with
      helpers := s.helpers ++ [some (some (fetch disk al s f).2)] }, none)
  | .phase k =>
    match s.helpers[k]? with
    | some (some none) => .ok (s, some none)
    | some (some (some p)) => do
      let w ← deref s.pm p
      .ok (s, some (some w))
    | _ => .throws
  | .endHelper k =>
    match s.helpers[k]? with
    | some (some none) => .ok ({ s with helpers := s.helpers.set k none }, none)
    | some (some (some p)) => do
      let pm ← free s.pm p
      .ok ({ s with pm := pm, helpers := s.helpers.set k none }, none)
    | _ => .throws

/-- A history of calls, and what is seen. -/
def run [DecidableEq ν] (disk : F → W) (al : List Bool → ℕ) (s : St F W ν) :
    List (Op F ν) → Res (St F W ν × List (Option (Option W)))
  | [] => .ok (s, [])
  | op :: ops => do
    let r ← step disk al s op
    let r' ← run disk al r.1 ops
    .ok (r'.1, r.2 :: r'.2)

end

end Verif.WtOwn
