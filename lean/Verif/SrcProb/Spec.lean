import Verif.SrcProb.Types
/-
The probability that an event comes from a source.
-/
namespace Verif.SrcProb.Spec
open Verif.SrcProb

/-- The density of all sources. -/
def total (model : List Src) (e : Nat) : ℝ := (model.map fun x => x.dens e).sum

/-- The share of a source in the density of all sources of the model. -/
noncomputable def prob (model : List Src) (x : Src) (e : Nat) : ℝ := x.dens e / total model e

/-- The sources asked for: all, or those of the list. -/
def asked (c : Cfg) (n : Name) : Prop :=
  match c.list with
  | none => ∃ x ∈ c.model, x.name = n
  | some l => n ∈ l

/-- A model in order: no two sources have the same name. -/
def Proper (model : List Src) : Prop := (model.map Src.name).Nodup

end Verif.SrcProb.Spec
