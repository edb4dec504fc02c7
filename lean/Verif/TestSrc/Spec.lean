import Verif.TestSrc.Types
import Mathlib.Tactic.Common

/-!
# The test source of a scan: what a client expects

The test source is chosen by the last successful call; choosing one changes nothing in the model,
and a call that fails changes nothing at all.
-/

namespace Verif.TestSrc.Spec

variable {N D : Type} [DecidableEq N]

/-- The model, the test source, the name it was last chosen by, and whether it is the scanner's
own. -/
structure Values (N D : Type) where
  model : N → Option D
  test : Option D
  name : N
  own : Bool

/-- A new scanner, and an empty model. -/
def init (n : N) : Values N D := ⟨fun _ => none, none, n, false⟩

/-- The expected effect of a call. -/
def step (v : Values N D) : Op N D → Values N D × Obs D
  | .add n d =>
    match v.model n with
    | some _ => (v, .failed)
    | none => ({ v with model := Function.update v.model n (some d) }, .nothing)
  | .remove n =>
    match v.model n with
    | none => (v, .failed)
    | some _ => ({ v with model := Function.update v.model n none }, .nothing)
  | .ask n =>
    match v.model n with
    | none => (v, .failed)
    | some d => (v, .saw d)
  | .powerlaw d => ({ v with test := some d, own := true }, .nothing)
  | .point d => ({ v with test := some d, own := true }, .nothing)
  | .byName n =>
    match v.model n with
    | none => (v, .failed)
    | some d => ({ v with test := some d, own := false, name := n }, .nothing)
  | .give n d o => ({ v with test := some d, own := o, name := n }, .nothing)
  | .use =>
    match v.test with
    | none => (v, .failed)
    | some d => (v, .saw d)

/-- A history. -/
def run (v : Values N D) : List (Op N D) → Values N D × List (Obs D)
  | [] => (v, [])
  | op :: ops => ((run (step v op).1 ops).1, (step v op).2 :: (run (step v op).1 ops).2)

/-- Calls that keep the names of test sources and of the sources of the model apart: when a test
source is replaced, there is no source of its name in the model; one that is chosen by name is
there, has a new name, and is not taken out of the model. -/
def Calm (v : Values N D) : Op N D → Prop
  | .powerlaw _ => v.model v.name = none
  | .byName n => n ≠ v.name ∧ v.model v.name = none ∧ v.model n ≠ none
  | .give n _ _ => n ≠ v.name → v.model v.name = none
  | .remove n => n ≠ v.name ∨ v.own = true
  | _ => True

/-- Histories of such calls. -/
def CalmRun (v : Values N D) : List (Op N D) → Prop
  | [] => True
  | op :: ops => Calm v op ∧ CalmRun (step v op).1 ops

end Verif.TestSrc.Spec
