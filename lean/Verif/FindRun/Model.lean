import Mathlib.Tactic.Common
import Verif.FindRun.Types
/-
Model of the run of `gtfindsrc` as far as its files and the names of the sources are concerned
(src/gtfindsrc/gtfindsrc.cxx:95-158, 173-222, 229-256, 319-407).  The search itself (Verif.FindSrc) is a
parameter: from the other sources and the target it makes a `Found`, or an exception (`none`).  The
event data, exposure maps and cuts are those of a run that succeeds up to there.  The result is the
files afterwards and whether there was no exception.
-/
namespace Verif.FindRun

variable {α ρ : Type}

/-- `m_sources[n] = s` or the removal of `n`. -/
def put (m : Model α) (n : String) (s : Option (Src α)) : Model α := fun k => if k = n then s else m k

/-- A file is written. -/
def write (fs : Files α ρ) (n : String) (c : Content α ρ) : Files α ρ := fun k => if k = n then some c else fs k

/-- Whether a file is named, gtfindsrc.cxx:187, 373. -/
def named (n : String) : Bool := decide (n ≠ "") && decide (n ≠ "none")

/-- `readSrcModel`, gtfindsrc.cxx:185-199. -/
def readModel (o : Opts α) (fs : Files α ρ) : Option (Model α) :=
  if named o.srcmdl then
    match fs o.srcmdl with
    | some (.model m) => some m
    | _ => none
  else some fun _ => none

/-- `identifyTarget` and `setTestSource`, gtfindsrc.cxx:201-226, 441-472: the name of the test source, the
source, and the model without it. -/
def identify (o : Opts α) (m : Model α) : Option (String × α × Model α) :=
  match m o.target with
  | none => some ("testSource", o.coords, m)
  | some (.point a) => some (o.target, a, put m o.target none)
  | some (.other _) => none

/-- `fitPosition`, gtfindsrc.cxx:319-407: `addSource` of line 241 throws for a name in use; the test
source is deleted at the end if it has the name `testSource`, 360-362, the points are written, 373-394, and
the position is stored for other names, 400-405.  The files, and the model if there was no exception. -/
def fitPosition (o : Opts α) (look : Model α → α → Option (Found α ρ)) (fs : Files α ρ) (n : String) (a : α) (m : Model α) :
    Files α ρ × Option (Model α) :=
  if (m n).isSome then (fs, none)
  else match look m a with
    | none => (fs, none)
    | some r =>
      let m := if n = "testSource" then put r.others n none else put r.others n (some (.point r.left))
      let fs := if named o.outfile then write fs o.outfile (.report r.report) else fs
      if n = "testSource" then (fs, some m)
      else match r.stored with
        | none => (fs, none)
        | some b => (fs, some (put m n (some (.point b))))

/-- `run`, gtfindsrc.cxx:95-158, with the check of `promptForInputData`, 168-173. -/
def run (o : Opts α) (look : Model α → α → Option (Found α ρ)) (fs : Files α ρ) : Files α ρ × Bool :=
  if o.clobber = false ∧ (fs o.outfile).isSome = true then (fs, false)
  else match readModel o fs with
    | none => (fs, false)
    | some m =>
      match identify o m with
      | none => (fs, false)
      | some (n, a, m) =>
        match fitPosition o look fs n a m with
        | (fs, none) => (fs, false)
        | (fs, some m) =>
          if o.clobber = true ∧ (m o.target).isSome = true then (write fs o.srcmdl (.model m), true) else (fs, true)

end Verif.FindRun
