import Mathlib.Data.Real.Basic
/-
Types shared by the model and the specification of the merging of sources.
-/
namespace Verif.Merge

/-- A source: one that is no composite, with an identification of the object and whether its
spectrum is fixed, or a composite source: whether its spectrum is fixed, the sources in it by
name, and its source maps by name, if it has a cache for them. -/
inductive Src (ν : Type) where
  | leaf (id : Nat) (fixed : Bool)
  | comp (fixed : Bool) (parts : List (ν × Src ν)) (cache : Option (List (ν × List Nat)))

/-- Whether the spectrum of a source is fixed (`fixedSpectrum`, Source.cxx:205-207). -/
def fixed {ν : Type} : Src ν → Bool
  | .leaf _ f => f
  | .comp f _ _ => f

/-- A source in a composite source, for one event: value of its spectrum and its response. -/
inductive Part where
  | point (spec resp : ℝ)
  | diffuse (spec resp : ℝ)

/-- Calls. -/
inductive Op (ν : Type) where
  /-- merge the named sources into a composite source, with fixed spectrum or not -/
  | merge (name : ν) (srcs : List ν) (fixed : Bool)
  /-- split a composite source -/
  | split (name : ν)

end Verif.Merge
