import Mathlib.Tactic.Common
import Verif.Readd.Types
/-
What a user expects of adding, moving and deleting sources: the counts of a source are those of a
source that is where the source now is.
-/
namespace Verif.Readd

variable {ν σ : Type} [DecidableEq ν] [DecidableEq σ]

/-- The sources there are, what the maps kept were drawn for, and how often each place is in the
sum of the fixed sources. -/
structure World (ν σ : Type) where
  srcs : ν → Option (σ × Bool)
  drawn : ν → Option σ
  sum : σ → Int

/-- One value of a function is changed. -/
def upd {α : Type} (f : ν → α) (n : ν) (a : α) : ν → α := fun m => if m = n then a else f m

/-- The place of a source in the sum of the fixed sources. -/
def World.count (w : World ν σ) (k : Int) (d : σ) : World ν σ := { w with sum := fun x => if x = d then w.sum x + k else w.sum x }

/-- A map of a source is kept. -/
def World.draw (w : World ν σ) (n : ν) (d : σ) : World ν σ := { w with drawn := upd w.drawn n (some d) }

/-- A source goes away. -/
def World.gone (c : Cfg) (w : World ν σ) (n : ν) : World ν σ :=
  match w.srcs n with
  | none => w
  | some (d, f) =>
    let w := { w with srcs := upd w.srcs n none }
    if c.single = true ∧ f = true then (w.count (-1) d).draw n d else w

/-- What an operation means. -/
def World.step (c : Cfg) (w : World ν σ) : Op ν σ → World ν σ
  | .add n s _ load =>
    let w := { w with srcs := upd w.srcs n (some (s.shape, s.fixed)) }
    if c.single = true ∧ s.fixed = true then (w.count 1 s.shape).draw n s.shape
    else if load then w.draw n s.shape else w
  | .addNew n s _ =>
    let w := { w with srcs := upd w.srcs n (some (s.shape, s.fixed)) }
    if c.single = true ∧ s.fixed = true then (w.count 1 s.shape).draw n s.shape else w.draw n s.shape
  | .delete n => w.gone c n
  | .remove n =>
    match w.srcs n with
    | none => w
    | some (_, f) => if f then w.gone c n else { w.gone c n with drawn := upd (w.gone c n).drawn n none }
  | .erase n => { w with drawn := upd w.drawn n none }
  | .move n d =>
    match w.srcs n with
    | none => w
    | some (_, f) => { w with srcs := upd w.srcs n (some (d, f)) }
  | .use n =>
    match w.srcs n with
    | none => w
    | some (d, _) => w.draw n d
  | .compute _ => w

/-- The operations after which the expectation is met: a source is not added under a name for which
a map of another place is kept, and a source of which a map is kept or which is in the sum of the
fixed sources does not move. -/
def Good (c : Cfg) (w : World ν σ) : Op ν σ → Prop
  | .add n s _ _ => w.srcs n = none ∧ (w.drawn n = none ∨ w.drawn n = some s.shape)
  | .addNew n s _ => w.srcs n = none ∧ (c.single = true ∧ s.fixed = true → w.drawn n = none ∨ w.drawn n = some s.shape)
  | .delete n => w.srcs n ≠ none
  | .move n d => ∃ a f, w.srcs n = some (a, f) ∧ (w.drawn n = none ∨ w.drawn n = some d) ∧ (c.single = true ∧ f = true → d = a)
  | .compute n => w.srcs n ≠ none
  | _ => True

/-- All operations of a history are such. -/
def AllGood (c : Cfg) (w : World ν σ) : List (Op ν σ) → Prop
  | [] => True
  | o :: l => Good c w o ∧ AllGood c (w.step c o) l

/-- What a history means. -/
def World.run (c : Cfg) (w : World ν σ) : List (Op ν σ) → World ν σ
  | [] => w
  | o :: l => (w.step c o).run c l

/-- Nothing yet. -/
def World.empty : World ν σ := ⟨fun _ => none, fun _ => none, fun _ => 0⟩

end Verif.Readd
