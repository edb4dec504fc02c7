import Mathlib.Data.List.Nodup
import Mathlib.Order.Basic
import Verif.Factory.Types

/-!
# The source factory: what is expected

The factory is a table of sources by name.  A client may use, change, delete and hand over only the sources it owns; it owns what it
made or got from the factory and has neither deleted nor handed over.  `lost` counts the sources nobody owns any more.
-/

namespace Verif.Factory.Spec

open Verif.Factory

variable {N V : Type} [DecidableEq N]

/-- The prototypes, the variables of the client (`none` if it does not own the source any more), and the number of lost sources. -/
structure State (N V : Type) where
  proto : N → Option (Src N V)
  own : List (Option (Src N V))
  lost : Nat

/-- Nothing there. -/
def start : State N V := ⟨fun _ => none, [], 0⟩

/-- The table with another entry for `n`. -/
def upd (P : N → Option (Src N V)) (n : N) (o : Option (Src N V)) : N → Option (Src N V) := fun m => if m = n then o else P m

/-- The table with more sources, each under its own name. -/
def addAll (P : N → Option (Src N V)) (l : List (Src N V)) : N → Option (Src N V) := l.foldl (fun Q s => upd Q s.name (some s)) P

/-- The client owns source `i`. -/
def Owns (σ : State N V) (i : Nat) (s : Src N V) : Prop := σ.own[i]? = some (some s)

/-- The client uses only what it owns. -/
def Legal (σ : State N V) : Op N V → Prop
  | .look i => ∃ s, Owns σ i s
  | .edit i _ => ∃ s, Owns σ i s
  | .drop i => ∃ s, Owns σ i s
  | .add _ i _ => ∃ s, Owns σ i s
  | .replace i _ => ∃ s, Owns σ i s
  | _ => True

/-- The sources can all be added: the names differ from each other and from those of the prototypes. -/
def Fresh (P : N → Option (Src N V)) (l : List (Src N V)) : Prop := (l.map Src.name).Nodup ∧ ∀ s ∈ l, P s.name = none

variable [LT N]

/-- What a call does. -/
inductive Step : State N V → Op N V → Out N V → State N V → Prop
  | make (σ s) : Step σ (.make s) .done { σ with own := σ.own ++ [some s] }
  | look (σ i s) : Owns σ i s → Step σ (.look i) (.source s) σ
  | edit (σ i s t) : Owns σ i s → Step σ (.edit i t) .done { σ with own := σ.own.set i (some t) }
  | drop (σ i s) : Owns σ i s → Step σ (.drop i) .done { σ with own := σ.own.set i none }
  | create (σ n s) : σ.proto n = some s → Step σ (.create n) .done { σ with own := σ.own ++ [some s] }
  | createNo (σ n) : σ.proto n = none → Step σ (.create n) .threw σ
  | release (σ n s) : σ.proto n = some s → Step σ (.release n) .done { σ with proto := upd σ.proto n none, own := σ.own ++ [some s] }
  | releaseNo (σ n) : σ.proto n = none → Step σ (.release n) .threw σ
  | add (σ n i c s) : Owns σ i s → σ.proto n = none →
      Step σ (.add n i c) .done { σ with proto := upd σ.proto n (some s), own := if c then σ.own else σ.own.set i none }
  | addNo (σ n i c s) : Owns σ i s → σ.proto n ≠ none → Step σ (.add n i c) .threw σ
  | replace (σ i c s) : Owns σ i s →
      Step σ (.replace i c) .done { σ with proto := upd σ.proto s.name (some s), own := if c then σ.own else σ.own.set i none }
  | names (σ l) : l.Pairwise (· < ·) → (∀ n, n ∈ l ↔ σ.proto n ≠ none) → Step σ .names (.names l) σ
  | load (σ l) : Fresh σ.proto l → Step σ (.load l) .done { σ with proto := addAll σ.proto l }
  /-- The sources before the offending one stay; that one and those after it are lost. -/
  | loadNo (σ pre s post) : Fresh σ.proto pre → addAll σ.proto pre s.name ≠ none →
      Step σ (.load (pre ++ s :: post)) .threw { σ with proto := addAll σ.proto pre, lost := σ.lost + (post.length + 1) }
  /-- A copy of each part is lost. -/
  | nest (σ l) : Fresh σ.proto l → Step σ (.nest l) (.parts l) { σ with lost := σ.lost + l.length }
  | nestNo (σ pre s post) : Fresh σ.proto pre → σ.proto s.name ≠ none →
      Step σ (.nest (pre ++ s :: post)) .threw { σ with lost := σ.lost + (pre.length + (post.length + 1)) }
  /-- A part of a name that was there before is left in the factory. -/
  | nestDup (σ pre s post) : Fresh σ.proto pre → σ.proto s.name = none → s.name ∈ pre.map Src.name →
      Step σ (.nest (pre ++ s :: post)) .threw
        { σ with proto := upd σ.proto s.name (some s), lost := σ.lost + (pre.length + (post.length + 1)) }
  | close (σ) : Step σ .close .done { σ with proto := fun _ => none }

/-- A history. -/
inductive Run : State N V → List (Op N V) → List (Out N V) → State N V → Prop
  | nil (σ) : Run σ [] [] σ
  | snoc {σ ops os σ' op o σ''} : Run σ ops os σ' → Step σ' op o σ'' → Run σ (ops ++ [op]) (os ++ [o]) σ''

end Verif.Factory.Spec
