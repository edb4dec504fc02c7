/-
Types shared by the model and the specification of the files of a run of `gtfindsrc`.
-/
namespace Verif.FindRun

/-- A source: a point source with what is known of it, or one of another kind. -/
inductive Src (α : Type) where
  | point (a : α)
  | other (a : α)

/-- The sources of a model by name. -/
abbrev Model (α : Type) := String → Option (Src α)

/-- What a file holds: a source model, the list of points of `gtfindsrc` (`ρ`), or something else. -/
inductive Content (α ρ : Type) where
  | model (m : Model α)
  | report (r : ρ)
  | else_

/-- The files there are. -/
abbrev Files (α ρ : Type) := String → Option (Content α ρ)

/-- What a search gives: the other sources, the target as the search leaves it in the model, the
target at the position found (`none` if this position cannot be stored), and the list of points. -/
structure Found (α ρ : Type) where
  others : Model α
  left : α
  stored : Option α
  report : ρ

/-- What the user asks for: `outfile`, `srcmdl`, `target`, `clobber`, and a source at the coordinates
given, for a target that is not in the model. -/
structure Opts (α : Type) where
  outfile : String
  srcmdl : String
  target : String
  clobber : Bool
  coords : α

end Verif.FindRun
