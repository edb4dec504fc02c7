import Verif.MapFile.Model
import Verif.SrcApp.Types
/-
The files of a run of gtsrcmaps.

Simplifications.  Maps are those of `Verif.MapFile`, of which the functions that get and save source
maps are used.  Reading the parameters, the checks of the time cuts, of the exposure cube and of the
exposure map and reading the model (gtsrcmaps.cxx:101-183) do not write files; whether they succeed is
a parameter.  The composition of composite sources and the keywords and intervals that are written
into headers at the end are left out.  What `fcopy` does with a file that is copied onto itself is not
part of this code; it is a parameter.
-/
namespace Verif.SrcApp
open Verif Verif.MapFile

variable {φ ν ι π : Type} [DecidableEq φ] [DecidableEq ν]

/-- The sources read from the model, SourceFactory.cxx:322-326: without `addPointSources` point sources
are left out. -/
def sources (e : Env φ ν ι π) (ptsrc : Bool) : List ν :=
  e.srcs.filter fun n => ptsrc || !decide (e.kind n = .point)

/-- The setting of the run, AppHelpers.cxx:1128-1137, gtsrcmaps.cxx:160: maps in the file of the counts
map are used. -/
def setting (e : Env φ ν ι π) (p : Pars φ) : Env φ ν ι π :=
  { e with srcs := sources e p.ptsrc, computePoint := p.ptsrc, loadExisting := true }

/-- `checkOutputFile`, AppHelpers.cxx:589-601: is the run refused?  `noneName` is the file called `none`. -/
def refused (p : Pars φ) (noneName : φ) (files : φ → Option (File ν ι π)) : Bool :=
  !p.clobber && !decide (p.out = noneName) && (files p.out).isSome

/-- The output file without the maps, gtsrcmaps.cxx:186-199.  Both ways refuse to replace a file without
`clobber`. -/
def output (p : Pars φ) (self : Option (File ν ι π)) (st : St φ ν ι π) : Res (St φ ν ι π) :=
  if p.clobber || !(st.files p.out).isSome then
    if p.copyall then
      if p.out = p.cmap then
        match self with
        | none => .throws
        | some x => .ok (st.write p.out x)
      else
        match st.files p.cmap with
        | none => .throws
        | some x => .ok (st.write p.out x)
    else .ok (st.write p.out (fresh true))
  else .throws

/-- `buildFixedModelWts(true)`, BinnedLikelihood.cxx:706-724: the map of every source, fixed or not, is
got. -/
def fetch (e : Env φ ν ι π) : List ν → St φ ν ι π → Res (St φ ν ι π)
  | [], st => .ok st
  | n :: l, st => do
    let r ← getMap e st n
    fetch e l r.1

/-- The source maps, gtsrcmaps.cxx:201-202: `saveSourceMaps(srcMapsFile)` with the defaults
`replace=false, includecountsmap=true`, BinnedLikelihood.h:455-457. -/
def maps (e : Env φ ν ι π) (p : Pars φ) (st : St φ ν ι π) : Res (St φ ν ι π) := do
  let st ← fetch (setting e p) (setting e p).srcs st
  save (setting e p) st (some p.out) false true

/-- `run`, gtsrcmaps.cxx:100-216: how it ends and the files afterwards.  An error leaves the files as
they are at that point; of the files of an undefined or failed saving nothing but the output without
maps is described. -/
def run (e : Env φ ν ι π) (p : Pars φ) (noneName : φ) (self : Option (File ν ι π)) (checks : Bool) (par : π)
    (files : φ → Option (File ν ι π)) : End × (φ → Option (File ν ι π)) :=
  if refused p noneName files then (.fails, files)
  else if !checks || !(files p.cmap).isSome then (.fails, files)
  else
    match output p self ⟨some p.cmap, files, fun _ => none, par⟩ with
    | .ok st =>
      match maps e p st with
      | .ok st' => (.done, st'.files)
      | .throws => (.fails, st.files)
      | .ub => (.undefined, st.files)
    | .throws => (.fails, files)
    | .ub => (.undefined, files)

end Verif.SrcApp
