import Verif.PhiDep.Types
/-
Which effective area is to be used.
-/
namespace Verif.PhiDep.Spec

variable {A : Type}

/-- The area of a type in a direction for a cube with or without azimuth. -/
def Wanted (R : Irfs A) (id : Nat) (phi : Bool) (a : A) (v : ℝ) : Prop := v = R.area id phi a

/-- The sum over the types of area and fraction. -/
def Sum (R : Irfs A) (phi : Bool) (a : A) : List Nat → ℝ
  | [] => 0
  | i :: is => R.psf i a * R.area i phi a + Sum R phi a is

/-- Something in a history made the response functions forget the azimuth. -/
def Forgot (h : List (Op A)) : Prop := ∃ o ∈ h, o = .ignore ∨ o = .cube false

/-- The averaged area of all types, for an element of the response matrix. -/
def Averaged (R : Irfs A) (a : A) : List Nat → ℝ
  | [] => 0
  | i :: is => R.area i false a + Averaged R a is

end Verif.PhiDep.Spec
