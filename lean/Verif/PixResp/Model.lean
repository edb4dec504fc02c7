import Verif.PixResp.Types
/-
Model of the responses of diffuse sources that are computed from the pixels of their maps, of the solid angles of pixels,
and of the state of diffuse sources: src/DiffuseSource.cxx, parts of src/WcsMap2.cxx and src/ProjMap.cxx.  Single and double
precision numbers are real numbers.
-/
namespace Verif.PixResp

/-- Degrees in radians. -/
noncomputable def rad (x : ℝ) : ℝ := x * Real.pi / 180

/-- `dir().dot(dir())` of two directions (the library). -/
noncomputable def dot (a b : Dir) : ℝ :=
  Real.sin (rad a.2) * Real.sin (rad b.2) + Real.cos (rad a.2) * Real.cos (rad b.2) * Real.cos (rad a.1 - rad b.1)

/-- `SkyDir::difference` (the library). -/
noncomputable def separation (a b : Dir) : ℝ := Real.arccos (dot a b)

/-- The solid angle from the four sides, WcsMap2.cxx:779-786. -/
noncomputable def fromSides (left right bottom top : Dir) : ℝ :=
  |Real.arccos (dot left right) * ((top.2 - bottom.2) * Real.pi / 180)|

/-- The solid angle once the sides are known to be on the sky, WcsMap2.cxx:766-793.  At the pole `left` is written twice,
line 772 and line 775. -/
noncomputable def insideSky (proj : Proj) (x y : ℝ) (center left right bottom top : Dir) : Option ℝ :=
  open Classical in
  if |center.2| = 90 then do
    let _ ← proj (x - 0.5) (y - 0.25)
    let right' ← proj (x + 0.5) (y - 0.25)
    let top' ← proj x y
    let left' ← proj x (y - 0.5)
    some (fromSides left' right' bottom top' * 2)
  else some (fromSides left right bottom top)

/-- `solidAngle(proj, ilon, ilat)`, WcsMap2.cxx:758-793; nothing if the library throws. -/
noncomputable def solidAngleOf (proj : Proj) (x y : ℝ) : Option ℝ := do
  let center ← proj x y
  let left ← proj (x - 0.5) y
  let right ← proj (x + 0.5) y
  let bottom ← proj x (y - 0.5)
  let top ← proj x (y + 0.5)
  insideSky proj x y center left right bottom top

/-- `solidAngle(ilon, ilat)`, WcsMap2.cxx:795-806. -/
noncomputable def solidAngle (proj : Proj) (x y : ℝ) : ℝ := (solidAngleOf proj x y).getD 0

/-- `solidAngles`, WcsMap2.cxx:809-822. -/
noncomputable def solidAngles (g : Grid) : List (List ℝ) :=
  (List.range g.naxis1).map (fun i : Nat => (List.range g.naxis2).map (fun j : Nat =>
    solidAngle g.proj ((i : ℝ) + 1) ((j : ℝ) + 1)))

/-- `ProjMap::skyDir`, ProjMap.cxx:111-130: an exception is caught and the direction is that of the origin. -/
noncomputable def skyDir (proj : Proj) (x y : ℝ) : Dir := (proj x y).getD (0, 0)

/-- `psfRange`, DiffuseSource.cxx:401-410. -/
noncomputable def psfRange (energy : ℝ) : ℝ :=
  open Classical in
  if 1e4 < energy then 5 * Real.pi / 180 else 5 * Real.pi / 180 * (energy / 1e4) ^ (-0.8 : ℝ)

/-- One pixel, DiffuseSource.cxx:360-370, 339-347: `resp` is the total response to a photon from a direction, `dist` the
spatial distribution at the energy of the event. -/
noncomputable def addPixel (event : Dir) (energy : ℝ) (resp dist : Dir → ℝ) (d : Dir) (omega acc : ℝ) : ℝ :=
  open Classical in
  if separation event d < psfRange energy then acc + resp d * dist d * omega else acc

/-- `diffuseResponse_wcs`, DiffuseSource.cxx:352-374. -/
noncomputable def responseWcs (g : Grid) (event : Dir) (energy : ℝ) (resp dist : Dir → ℝ) : ℝ :=
  (solidAngles g).zipIdx.foldl (fun acc row => row.1.zipIdx.foldl (fun acc cell =>
    addPixel event energy resp dist (skyDir g.proj ((row.2 : ℝ) + 1) ((cell.2 : ℝ) + 1)) cell.1 acc) acc) 0

/-- `diffuseResponse_healpix`, DiffuseSource.cxx:330-350: pixels of one solid angle, with their directions. -/
noncomputable def responseHpx (omega : ℝ) (dirs : List Dir) (event : Dir) (energy : ℝ) (resp dist : Dir → ℝ) : ℝ :=
  dirs.foldl (fun acc d => addPixel event energy resp dist d omega acc) 0

/-! ### The state of a source -/

/-- `computeMapRadius`, DiffuseSource.cxx:379-398, RadialGaussian.h:79-82, RadialDisk.h:80-82, RadialProfile.h:54-56. -/
noncomputable def computeRadius (s : Spatial) : ℝ :=
  match s.kind with
  | .isotropic => 180
  | .gaussian => 5 * s.width
  | .disk => s.width
  | .profile => s.width
  | .map => s.width * 180 / Real.pi

/-- `isMoveable`, DiffuseSource.cxx:93-102. -/
def isMoveable (s : Spatial) : Bool := s.kind == .isotropic || s.kind == .gaussian || s.kind == .disk || s.kind == .profile

/-- `mapRadius`, DiffuseSource.h:115-120: the answer and the source with the answer kept. -/
noncomputable def mapRadius (s : Src) : ℝ × Src :=
  open Classical in
  if s.radius < 0 then (computeRadius s.spatial, { s with radius := computeRadius s.spatial }) else (s.radius, s)

/-- `moveSource`, DiffuseSource.cxx:104-121: the flag for the exposure is not used. -/
def moveSource (s : Src) (d : Dir) (_update : Bool) : Res Src :=
  match s.spatial.kind with
  | .isotropic => .ok s
  | .gaussian => .ok { s with spatial := { s.spatial with centre := d } }
  | .disk => .ok { s with spatial := { s.spatial with centre := d } }
  | .profile => .ok { s with spatial := { s.spatial with centre := d } }
  | .map => .throws

/-- One operation; `integral` is the exposure of a spatial model at energies (`computeExposure`, DiffuseSource.cxx:56-90). -/
noncomputable def step (integral : Spatial → List ℝ → List ℝ) (s : Src) : Op → Res Src
  | .move d u => moveSource s d u
  | .resize w => .ok { s with spatial := { s.spatial with width := w } }
  | .size => .ok (mapRadius s).2
  | .expose es => .ok { s with energies := es, exposure := integral s.spatial es }

/-- A history; exceptions are caught and leave the source as it was. -/
noncomputable def run (integral : Spatial → List ℝ → List ℝ) : Src → List Op → Src
  | s, [] => s
  | s, o :: os =>
    match step integral s o with
    | .ok s' => run integral s' os
    | _ => run integral s os

/-- The copy constructor, DiffuseSource.cxx:124-131 and Source.cxx:53-64. -/
def copy (s : Src) : Src := ⟨s.spatial, s.radius, s.energies, s.exposure⟩

/-! ### Densities -/

/-- `fluxDensity`, DiffuseSource.cxx:133-157: `response` is the diffuse response of the event, if it has one. -/
def fluxDensity (sp : Spectrum) (energy : ℝ) (response : Res ℝ) : Res ℝ := do
  let r ← response
  .ok (sp.value energy * r)

/-- `fluxDensityDeriv`, DiffuseSource.cxx:159-196. -/
noncomputable def fluxDensityDeriv (sp : Spectrum) (energy : ℝ) (response : Res ℝ) (name : List Char) : Res ℝ :=
  if name = "Prefactor".toList then
    match sp.prefactor with
    | none => .throws
    | some p =>
      open Classical in
      if p ≠ 0 then (fluxDensity sp energy response).bind fun f => .ok (f / p)
      else response.bind fun r => .ok (sp.deriv energy name * r)
  else response.bind fun r => .ok (sp.deriv energy name * r)

end Verif.PixResp
