import Mathlib.Analysis.SpecialFunctions.Trigonometric.Inverse
import Mathlib.Analysis.SpecialFunctions.Trigonometric.Bounds
import Mathlib.MeasureTheory.Integral.IntervalIntegral.Basic
/-
Model of the integration over the sky for the response of an event to a diffuse source:
src/EquinoxRotation.cxx, the directions of src/DiffRespIntegrand.cxx and
src/DiffRespIntegrand2.cxx, the limits of src/MapBase.cxx and the sum of
`computeResponseGQ` of src/Event.cxx.
-/
namespace Verif.SkyInt
open Real

/-- A vector (`CLHEP::Hep3Vector`). -/
@[ext] structure V3 where
  x : ℝ
  y : ℝ
  z : ℝ

/-- `dot`. -/
def V3.dot (u v : V3) : ℝ := u.x * v.x + u.y * v.y + u.z * v.z

/-- `astro::SkyDir(ra, dec)`: the direction with these coordinates, in radians here. -/
noncomputable def sphere (alpha delta : ℝ) : V3 :=
  ⟨cos delta * cos alpha, cos delta * sin alpha, sin delta⟩

/-- `SkyDir::difference`: the angle between two directions, from the length of the chord. -/
noncomputable def difference (u v : V3) : ℝ :=
  2 * arcsin (√((u.x - v.x) ^ 2 + (u.y - v.y) ^ 2 + (u.z - v.z) ^ 2) / 2)

/-- A direction that may be undefined (NaN). -/
abbrev Dir := Option V3

/-- The matrix of `EquinoxRotation`, EquinoxRotation.cxx:16-49; angles in radians. -/
structure Rot where
  rows : Fin 3 → Fin 3 → ℝ

/-- The constructor, EquinoxRotation.cxx:16-49. -/
noncomputable def Rot.make (alpha0 delta0 : ℝ) : Rot :=
  let ca := cos alpha0
  let sa := sin alpha0
  let cd := cos delta0
  let sd := sin delta0
  ⟨![![cd * ca, -sa, -sd * ca], ![cd * sa, ca, -sd * sa], ![sd, 0, cd]]⟩

/-- One component of the result, EquinoxRotation.cxx:62-71. -/
def Rot.component (R : Rot) (reverse : Bool) (v : V3) (i : Fin 3) : ℝ :=
  let term (j : Fin 3) (vj : ℝ) := (if reverse then R.rows j i else R.rows i j) * vj
  0 + term 0 v.x + term 1 v.y + term 2 v.z

/-- `do_rotation`, EquinoxRotation.cxx:51-73.  The components of the direction that goes in are
computed from its coordinates and are those of its vector; that the vector that comes out is
normalised again has no effect on a unit vector. -/
def Rot.apply (R : Rot) (reverse : Bool) (v : V3) : V3 :=
  ⟨R.component reverse v 0, R.component reverse v 1, R.component reverse v 2⟩

/-- `my_acos`, DiffRespIntegrand2.cxx:22-32. -/
noncomputable def myAcos (mu : ℝ) : ℝ := if 1 < mu then 0 else if mu < -1 then π else arccos mu

/-- `getSrcDir`, DiffRespIntegrand2.cxx:70-84 (the same as DiffRespIntegrand.cxx:77-91 and
`getCelestialDir`, Event.cxx:417-436).  A division by zero, which can only be zero by zero, gives
an undefined direction. -/
noncomputable def srcDir (mu phi : ℝ) (R : Rot) : Dir :=
  let sp := sin phi
  let root := √(1 - (1 - mu * mu) * sp * sp)
  if root = 0 then none
  else
    let alpha := if cos phi < 0 then 2 * π - myAcos (mu / root) else myAcos (mu / root)
    let delta := arcsin (√(1 - mu * mu) * sp)
    some (R.apply false (sphere alpha delta))

/-- `phiValue`, DiffRespIntegrand.cxx:93-118; nothing if the reference direction or the
division is undefined.  A comparison with an undefined direction is false. -/
noncomputable def phiValue (mu : ℝ) (dir : V3) (R : Rot) : Option ℝ :=
  match srcDir mu 0 R with
  | none => none
  | some ref =>
    if 1 - mu * mu = 0 then none
    else
      let arg := (ref.dot dir - mu * mu) / (1 - mu * mu)
      let phi0 := if arg ≤ -1 then π else if 1 ≤ arg then 0 else arccos arg
      match srcDir mu phi0 R with
      | none => some (-phi0)
      | some d => if difference dir d < 1e-8 then some phi0 else some (-phi0)

end Verif.SkyInt
