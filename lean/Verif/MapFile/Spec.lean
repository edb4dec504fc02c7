import Verif.MapFile.Types
/-
What a user expects of source maps and files: every source has one image, which is that of the file
the analysis was started on or last saved to if it has one when the source is first used, and the
computed one otherwise; it changes when the user gives another, asks for it to be computed again or
forgets the source.  Saving puts the images in use in the named file and leaves the rest of the file
alone.  No memory is ever freed.
-/
namespace Verif.MapFile.Spec
open Verif.MapFile

variable {φ ν ι π : Type} [DecidableEq φ] [DecidableEq ν]

/-- The file in use, the files, the images in use, the parameters of the fixed sources. -/
structure World (φ ν ι π : Type) where
  cur : Option φ
  files : φ → Option (File ν ι π)
  img : ν → Option ι
  par : π

/-- The image a file in use has for a source. -/
def World.inFile (w : World φ ν ι π) (n : ν) : Option ι :=
  w.cur.bind fun f => (w.files f).bind fun x => x.map n

/-- The image of a source: the one in use, otherwise that of the file if existing maps are to be
used, otherwise the computed one. -/
def World.image (e : Env φ ν ι π) (w : World φ ν ι π) (n : ν) : ι :=
  ((w.img n).or (if e.loadExisting then w.inFile n else none)).getD (e.own n)

/-- The images of these sources are now in use. -/
def World.touch (e : Env φ ν ι π) (w : World φ ν ι π) (l : List ν) : World φ ν ι π :=
  { w with img := fun n => if n ∈ l then some (w.image e n) else w.img n }

/-- The contents of a file, or an empty file. -/
def World.content (w : World φ ν ι π) (f : φ) (counts : Bool) : File ν ι π :=
  (w.files f).getD ⟨counts, none, none, [], fun _ => none⟩

/-- The file `f` has these contents. -/
def World.write (w : World φ ν ι π) (f : φ) (x : File ν ι π) : World φ ν ι π :=
  { w with files := fun g => if g = f then some x else w.files g }

/-- What saving leaves of an old and a new item. -/
def keep {α : Type} (replace : Bool) (old new : Option α) : Option α :=
  match new with
  | none => old
  | some x => if replace then some x else some (old.getD x)

/-- The effect of a call. -/
def World.step (e : Env φ ν ι π) (w : World φ ν ι π) : Op φ ν ι π → World φ ν ι π
  | .use n => w.touch e [n]
  | .setImage n i => { w with img := fun m => if m = n then some i else w.img m }
  | .load n recreate =>
    if recreate then { w with img := fun m => if m = n then some (e.own m) else w.img m }
    else w.touch e [n]
  | .loadAll recreate saveMaps =>
    let w := if recreate then { w with img := fun m => if m ∈ e.srcs then some (e.own m) else w.img m }
      else w.touch e e.srcs
    match w.cur with
    | none => w
    | some f =>
      if saveMaps = true ∧ e.srcs ≠ [] then
        w.write f { w.content f false with
          map := fun n => if n ∈ e.srcs then w.img n else (w.content f false).map n }
      else w
  | .drop _ _ => w
  | .erase n => { w with img := fun m => if m = n then none else w.img m }
  | .save fn replace counts =>
    match fn with
    | none => w
    | some f =>
      { w with cur := some f }.write f { w.content f counts with
        weights := keep replace (w.content f counts).weights e.weights
        map := fun n => if n ∈ e.srcs then keep replace ((w.content f counts).map n) (w.img n)
          else (w.content f counts).map n }
  | .savePart _ _ _ _ _ => w
  | .setPar p => { w with par := p }
  | .saveTotal replace =>
    let w := w.touch e (e.srcs.filter e.fixed)
    match w.cur with
    | none => w
    | some f => w.write f { w.content f false with
        total := keep replace (w.content f false).total
          (some (e.total w.par ((e.srcs.filter e.fixed).map (w.image e))))
        pars := (w.content f false).pars ++ [w.par] }

/-- The effect of a sequence of calls. -/
def World.run (e : Env φ ν ι π) (w : World φ ν ι π) : List (Op φ ν ι π) → World φ ν ι π
  | [] => w
  | o :: os => (w.step e o).run e os

/-- The calls for which the program keeps its promise: files are named, there are fewer than 500
sources when they are saved, memory is freed only if the image is stored, and no parts of maps are
saved. -/
def Good (e : Env φ ν ι π) (w : World φ ν ι π) : Op φ ν ι π → Prop
  | .save f _ _ => f ≠ none ∧ e.srcs.length < 500
  | .loadAll _ saveMaps => saveMaps = true → w.cur ≠ none
  | .saveTotal _ => w.cur ≠ none
  | .drop _ force => force = false
  | .savePart _ _ _ _ _ => False
  | _ => True

/-- All calls are of this kind. -/
def AllGood (e : Env φ ν ι π) (w : World φ ν ι π) : List (Op φ ν ι π) → Prop
  | [] => True
  | o :: os => Good e w o ∧ AllGood e (w.step e o) os

end Verif.MapFile.Spec
