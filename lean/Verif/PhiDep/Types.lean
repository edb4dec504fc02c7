import Mathlib.Data.Real.Basic
/-
What the model and the specification of the use of the azimuth share.
-/
namespace Verif.PhiDep

/-- The response functions: their event types in order, the effective area of a type in a direction, with the
azimuth or averaged over it, the fraction of the point-spread function, and the energy dispersion. -/
structure Irfs (A : Type) where
  ids : List Nat
  area : Nat → Bool → A → ℝ
  psf : Nat → A → ℝ
  disp : Nat → A → ℝ

/-- Whether each response function uses the azimuth. -/
abbrev Flags := Nat → Bool

/-- What a program does with the response functions: it makes the effective area of a livetime cube with or
without azimuth, computes the exposure of a point source, an element of the detector response matrix, or is
asked to ignore the azimuth. -/
inductive Op (A : Type) where
  | cube (phi : Bool)
  | point (phi : Bool) (a : A)
  | drm (dirs : List (ℝ × A))
  | ignore

end Verif.PhiDep
