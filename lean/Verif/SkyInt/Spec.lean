import Verif.SkyInt.Model
/-
Directions on the sphere around a centre.
-/
namespace Verif.SkyInt.Spec
open Real

/-- The direction to the centre. -/
noncomputable def centre (ra dec : ℝ) : V3 := ⟨cos dec * cos ra, cos dec * sin ra, sin dec⟩

/-- East of it. -/
noncomputable def east (ra : ℝ) : V3 := ⟨-sin ra, cos ra, 0⟩

/-- North of it. -/
noncomputable def north (ra dec : ℝ) : V3 := ⟨-sin dec * cos ra, -sin dec * sin ra, cos dec⟩

/-- Scalar product. -/
def prod (u v : V3) : ℝ := u.x * v.x + u.y * v.y + u.z * v.z

/-- A unit vector. -/
def OnSphere (v : V3) : Prop := prod v v = 1

/-- Linear combination. -/
def comb (a b c : ℝ) (u v w : V3) : V3 :=
  ⟨a * u.x + b * v.x + c * w.x, a * u.y + b * v.y + c * w.y, a * u.z + b * v.z + c * w.z⟩

/-- The direction at the distance whose cosine is `mu` from the centre, at the angle `phi` from
east through north. -/
noncomputable def around (ra dec mu phi : ℝ) : V3 :=
  comb mu (√(1 - mu ^ 2) * cos phi) (√(1 - mu ^ 2) * sin phi) (centre ra dec) (east ra)
    (north ra dec)

end Verif.SkyInt.Spec
