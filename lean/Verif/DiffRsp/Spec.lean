import Verif.DiffRsp.Types
/-
What a user expects of the responses in event files.
-/
namespace Verif.DiffRsp.Spec
open Verif.DiffRsp

/-- The component of a source: response functions, two underscores, name of the source, all in lower
case. -/
def component (base src : Name) : Name := (base ++ '_' :: '_' :: src).map Char.toLower

/-- The response functions without a qualifier, such as `::FRONT`. -/
def Base (irf base : Name) : Prop := ':' ∉ base ∧ (irf = base ∨ ∃ q, irf = base ++ ':' :: ':' :: q)

/-- The file holds the value `v` for component `n` in row `j`: in the column whose keyword has the name. -/
def Stored (f : EvFile) (n : Name) (j : Nat) (v : ℝ) : Prop :=
  ∃ (i : Nat) (c : Nat → ℝ), f.keys[i]? = some n ∧ f.cols i = some c ∧ c j = v

/-- Whether the user asks for the response to this event. -/
def Wanted (c : Cfg) (e : Ev) : Prop :=
  if c.old then c.clsmin ≤ e.cls
  else match c.cls with
    | none => True
    | some b => e.cls.testBit b = true

open Classical in
/-- The value for a source and an event: the response, or 0 where none is asked for. -/
noncomputable def value (c : Cfg) (x : Src) (e : Ev) : ℝ := if Wanted c e then x.resp e.id else 0

open Classical in
/-- The value from the first of the runs whose model has the component. -/
noncomputable def first (base : Cfg → Name) : List Cfg → Name → Ev → Option ℝ
  | [], _, _ => none
  | c :: cs, n, e =>
    match c.srcs.find? fun x => decide (component (base c) x.name = n) with
    | some x => some (value c x e)
    | none => first base cs n e

/-- Names in use come first, each once; the unused ones follow.  There is a column for each. -/
def Tidy (f : EvFile) : Prop :=
  (∃ (real : List Name) (k : Nat), f.keys = real ++ List.replicate k noName ∧ real.Nodup ∧ noName ∉ real) ∧
    ∀ i < f.keys.length, (f.cols i).isSome

end Verif.DiffRsp.Spec
