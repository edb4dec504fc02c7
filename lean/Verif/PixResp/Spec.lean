import Verif.PixResp.Types
/-
Specification, independent of the model.
-/
namespace Verif.PixResp.Spec

/-- The angle between two directions. -/
noncomputable def angle (a b : Dir) : ℝ :=
  Real.arccos (Real.sin (a.2 * Real.pi / 180) * Real.sin (b.2 * Real.pi / 180) +
    Real.cos (a.2 * Real.pi / 180) * Real.cos (b.2 * Real.pi / 180) * Real.cos ((a.1 - b.1) * Real.pi / 180))

/-- A map in plate carrée projection around a pixel: `step` degrees per pixel, the pixel `x`, `y` is at `lon`, `lat`. -/
def PlateCarree (proj : Proj) (x y lon lat step : ℝ) : Prop :=
  ∀ u v, |u| ≤ 1 / 2 → |v| ≤ 1 / 2 → proj (x + u) (y + v) = some (lon + u * step, lat + v * step)

/-- The solid angle between two meridians `step` degrees apart and two parallels half that above and below a latitude. -/
noncomputable def area (lat step : ℝ) : ℝ :=
  step * Real.pi / 180 * (Real.sin ((lat + step / 2) * Real.pi / 180) - Real.sin ((lat - step / 2) * Real.pi / 180))

/-- The two triangles of a pixel around a pole. -/
noncomputable def polarArea (step : ℝ) : ℝ := 2 * (step * Real.pi / 180 * (1 - Real.cos (step / 2 * Real.pi / 180)))

/-- How far from an event the map is used: five degrees, and more below 10 GeV. -/
noncomputable def range (energy : ℝ) : ℝ := 5 * Real.pi / 180 * max 1 ((energy / 10000) ^ (-(4 / 5) : ℝ))

/-- The size in degrees. -/
noncomputable def extent (s : Spatial) : ℝ :=
  match s.kind with
  | .isotropic => 180
  | .gaussian => 5 * s.width
  | .disk | .profile => s.width
  | .map => s.width * 180 / Real.pi

/-- The history does not change the size. -/
def KeepsSize (l : List Op) : Prop := ∀ o ∈ l, ∀ w, o ≠ Op.resize w

end Verif.PixResp.Spec
