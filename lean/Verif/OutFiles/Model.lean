import Verif.OutFiles.Types

/-!
# Files that a fit leaves: the program

`likelihood::run` of gtlike, src/likelihood/likelihood.cxx, as far as it touches files.  Plots are
off.  Opening an output file for writing always succeeds.
-/

namespace Verif.OutFiles

variable {σ α : Type}

/-- A file is created or replaced. -/
def put (fs : FS α) (n : String) (c : α) : FS α := fun m => if m = n then some c else fs m

/-- `std::remove`. -/
def rm (fs : FS α) (n : String) : FS α := fun m => if m = n then none else fs m

/-- The user writes files. -/
def edit (fs : FS α) : Edit α → FS α
  | [] => fs
  | (n, c) :: es => edit (put fs n c) es

/-- `AppHelpers::checkOutputFile`, src/AppHelpers.cxx:589-601: whether the program may go on. -/
def checkOutputFile (clobber : Bool) (fs : FS α) (file : String) : Bool :=
  if clobber then true
  else if file ≠ "none" ∧ (fs file).isSome then false else true

/-- One pass of the loop: the state and the files, or the files after an exception. -/
inductive Turn (σ α : Type) where
  | stop (fs : FS α)
  | next (s : σ) (fs : FS α)

/-- `printFitResults` as far as it touches files, likelihood.cxx:668-676, 734, 757-761: the file is
opened, which empties it, before `save` is looked at; without `save` nothing reaches it and it is
removed at the end. -/
def printFitResults (p : Pars) (g : Engine σ α) (s : σ) (fs : FS α) : Turn σ α :=
  let fs1 := put fs p.results g.empty
  let r := g.report s
  let fs2 := if p.save then put fs1 p.results r.1 else fs1
  if r.2 then .next s (if p.save then fs2 else rm fs2 p.results) else .stop fs2

/-- `writeSourceXml`, likelihood.cxx:431-439. -/
def writeSourceXml (p : Pars) (g : Engine σ α) (s : σ) (fs : FS α) : FS α :=
  if p.sfile ≠ "none" then put fs p.sfile (g.xml s) else fs

/-- One pass of the loop, likelihood.cxx:278-311, with `readSourceModel`, likelihood.cxx:392-416. -/
def turn (p : Pars) (g : Engine σ α) (s : σ) (fs : FS α) : Turn σ α :=
  match fs p.srcmdl with
  | none => .stop fs
  | some c =>
    match g.read s c with
    | none => .stop fs
    | some s1 =>
      match g.fit s1 with
      | none => .stop fs
      | some s2 =>
        match printFitResults p g s2 fs with
        | .stop f => .stop f
        | .next s3 f => .next s3 (writeSourceXml p g s3 f)

/-- `writeCountsSpectra` after the loop, likelihood.cxx:313-315, 458-470, and
src/CountsSpectra.cxx:106-115: the old file is removed first. -/
def finish (p : Pars) (g : Engine σ α) (s : σ) (fs : FS α) : Out σ α :=
  if p.save then
    let fs1 := rm fs p.specfile
    let r := g.spec s
    let fs2 := put fs1 p.specfile r.1
    if r.2 then .done s fs2 else .failed fs2
  else .done s fs

/-- The loop, likelihood.cxx:277-312; the list has an entry, what the user writes, for every further
fit asked for. -/
def loop (p : Pars) (g : Engine σ α) : List (Edit α) → σ → FS α → Out σ α
  | [], s, fs =>
    match turn p g s fs with
    | .stop f => .failed f
    | .next s' f => finish p g s' f
  | e :: es, s, fs =>
    match turn p g s fs with
    | .stop f => .failed f
    | .next s' f => loop p g es s' (edit f e)

/-- `run`, likelihood.cxx:201-318, with the check of `promptForParameters`, likelihood.cxx:347-349. -/
def run (p : Pars) (g : Engine σ α) (edits : List (Edit α)) (fs : FS α) : Out σ α :=
  if checkOutputFile p.clobber fs p.sfile then
    match g.setup with
    | none => .failed fs
    | some s => loop p g edits s fs
  else .refused fs

end Verif.OutFiles
