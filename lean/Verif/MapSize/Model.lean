import Verif.MapSize.Types
import Verif.Wcs.Model
import Verif.DiffMap.Model
import Mathlib.Analysis.SpecialFunctions.Trigonometric.Basic
/-
Model of the sizes of maps (src/WcsMap2.cxx, src/ProjMap.cxx, src/CountsMapHealpix.cxx) and of the choice of the method
and of the geometry by them for diffuse sources (src/PSFUtils.cxx).  Floating point numbers are reals.
-/
namespace Verif.MapSize
open Verif Real

/-! ### The radius of a map in the plane -/

/-- `skyDir`, ProjMap.cxx:113-131: what the projection throws is caught, the direction is then that of the origin of the
coordinates. -/
def skyDir (c : Chart) (x y : ℝ) : Dir := (c.dir x y).getD (0, 0)

/-- `getCorners`, WcsMap2.cxx:920-926. -/
def corners (c : Chart) : List Dir := [skyDir c 1 1, skyDir c 1 c.n2, skyDir c c.n1 c.n2, skyDir c c.n1 1]

/-- The loop over the corners, WcsMap2.cxx:210-216, 388-394; `sep` is the separation from the reference direction in
radians. -/
noncomputable def cornerRadius (sep : Dir → ℝ) (c : Chart) : ℝ :=
  open Classical in
  match corners c with
  | [] => 0
  | d :: ds => ds.foldl (fun r e => if r < sep e then sep e else r) (sep d)

/-- Whether a map counts as one around the sky, WcsMap2.cxx:185-187, 377-379; `n1` is the number of columns. -/
noncomputable def isPeriodic (n1 : ℤ) (cdelt1 : ℝ) : Bool := decide (|Wcs.myRound (n1 * cdelt1)| = 360)

/-- The radius of a map from a file, WcsMap2.cxx:204-219; nothing in it throws, see `skyDir`. -/
noncomputable def fileRadius (sep : Dir → ℝ) (cdelt1 : ℝ) (c : Chart) : ℝ :=
  if isPeriodic c.n1 cdelt1 then 180 else cornerRadius sep c

/-- `withinMapRadius`, ProjMap.cxx:133-138. -/
def within (sep : Dir → ℝ) (radius : ℝ) (d : Dir) : Prop := sep d ≤ radius

/-- `computeMapRadius` for a source with a map, DiffuseSource.cxx:396-397: in degrees. -/
noncomputable def sourceRadius (radius : ℝ) : ℝ := radius * 180 / π

/-! ### The method -/

/-- `neededMapSize`, PSFUtils.cxx:131-135. -/
noncomputable def neededSize (src map : ℝ) : ℝ := if src < map then src else map

/-- The kind of map and the radius of `makeDiffuseMap_native`, PSFUtils.cxx:640-663. -/
noncomputable def native (src map : ℝ) : Res Method :=
  if 90 ≤ map then
    if 90 ≤ src then .throws else .ok (.sparse src)
  else .ok (.part map)

/-- The choice in `makeDiffuseMap` for a counts map in healpix pixels, PSFUtils.cxx:339-353. -/
noncomputable def method (src map : ℝ) : Res Method :=
  if 45 < neededSize src map then .ok .healpix else native src map

/-! ### The geometry of the map in the plane -/

/-- The size of its pixels, PSFUtils.cxx:669-687, 696, 708-712, 721-722: `source` is the size of the pixels of the
source's map before it is rebinned, `rebinned` after that (those of the counts map without one). -/
noncomputable def step (source rebinned data : ℝ) (resample : Bool) (factor : ℝ) : ℝ :=
  max source data / (if resample then max factor (DiffMap.resampFactor resample factor data rebinned) else 1)

/-- Half of the number of its pixels, PSFUtils.cxx:736-757: `fn` tells whether the source has a spatial function. -/
noncomputable def half (fn : Bool) (radius c : ℝ) : Nat :=
  ⌊min 180 (radius + if fn then c else 10) / c⌋.toNat

/-- The distance from the reference point in the stereographic projection, in degrees, for a separation in degrees. -/
noncomputable def stg (theta : ℝ) : ℝ := 360 / π * tan (theta * π / 360)

/-- The position, in pixels, of the direction at separation `theta` and position angle `phi` from the reference
direction: PSFUtils.cxx:742-743, 755-756 for the reference pixel, 721-722 for the steps. -/
noncomputable def position (h : Nat) (c theta phi : ℝ) : ℝ × ℝ :=
  ((2 * (h : ℝ) + 1) / 2 - stg theta * sin phi / c, (2 * (h : ℝ) + 1) / 2 + stg theta * cos phi / c)

/-- The map in the plane, WcsMap2.cxx:290-347: whether it goes around the sky is decided with the number of columns before
this is set, at 306; `garbage` is what the memory held. -/
noncomputable def plane (garbage : ℤ) (h : Nat) (c energy : ℝ) (image : List (List ℝ)) : Wcs.Map where
  naxes := 2
  interp := true
  enforce := false
  periodic := isPeriodic garbage (-c)
  n1 := 2 * h
  n2 := 2 * h
  image := [image]
  energies := [energy]

/-- The value that a listed pixel gets, PSFUtils.cxx:149-151. -/
noncomputable def listed (m : Wcs.Map) (h : Nat) (c theta phi : ℝ) : Res ℝ := m.plane (some (position h c theta phi)) 0

/-! ### Counts maps in healpix pixels -/

/-- A map from a file, CountsMapHealpix.cxx:45-66, 360-378: `region` is the size of the region that is listed. -/
noncomputable def ofFile (region : Option ℝ) (pixels : List Nat) : Hpx := ⟨some (region.getD 180), pixels⟩

/-- The copies, CountsMapHealpix.cxx:68-76, 78-86, 88-103 and `clone`, CountsMapHealpix.h:59-61: the radius is not among
what is copied. -/
def copy (m : Hpx) : Hpx := ⟨none, m.pixels⟩

/-- `allSky`, CountsMapHealpix.h:88. -/
noncomputable def allSky (m : Hpx) : Res Bool :=
  open Classical in
  match m.radius with
  | none => .ub
  | some r => .ok (decide (180 ≤ r))

/-- `localToGlobalIndex`, CountsMapHealpix.cxx:348-352. -/
noncomputable def toGlobal (m : Hpx) (loc : Nat) : Res ℤ := do
  let a ← allSky m
  if a then .ok loc else
    match m.pixels[loc]? with
    | none => .ok (-1)
    | some p => .ok p

/-- `globalToLocalIndex`, CountsMapHealpix.cxx:342-346. -/
noncomputable def toLocal (m : Hpx) (glo : Nat) : Res ℤ := do
  let a ← allSky m
  if a then .ok glo else
    match m.pixels.findIdx? (· == glo) with
    | none => .ok (-1)
    | some i => .ok i

/-- `makeDiffuseMap` for a counts map, PSFUtils.cxx:339-353: it asks the map for its radius. -/
noncomputable def methodFor (src : ℝ) (m : Hpx) : Res Method :=
  match m.radius with
  | none => .ub
  | some r => method src r

end Verif.MapSize
