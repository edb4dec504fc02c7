import Verif.Basic
import Mathlib.Analysis.SpecialFunctions.Pow.Real
/-
Maps of the exposure and the exposure of diffuse sources: src/ExposureMap.cxx,
src/SpatialMap.cxx, src/MapCubeFunction2.cxx and `computeExposure` of src/DiffuseSource.cxx.

Numbers are reals, single precision is not modelled.  A direction is an element of any type
`D`.  The exposure in a direction (`PointSource::computeExposure`) is an input, and so are the
directions and solid angles of the pixels, which come from a library that reads the file.
Where the program divides by zero the result is `none` or `ub`.
-/
namespace Verif.ExpMap
open Real

/-- `vect.at(i)`. -/
def vat (l : List ℝ) (i : Nat) : Res ℝ :=
  match l[i]? with
  | some a => .ok a
  | none => .throws

/-- `vect.at(i) = x`. -/
def vput (l : List ℝ) (i : Nat) (x : ℝ) : Res (List ℝ) :=
  if i < l.length then .ok (l.set i x) else .throws

/-- `estep`, ExposureMap.cxx:130. -/
noncomputable def estep (emin emax : ℝ) (ne : Nat) : Option ℝ :=
  if ne = 1 then none else some (log (emax / emin) / ((ne : ℝ) - 1))

/-- The energies of the planes, ExposureMap.cxx:130-134; with an infinite step the first energy
is not a number. -/
noncomputable def mapEnergies (emin emax : ℝ) (ne : Nat) : Option (List ℝ) :=
  match estep emin emax ne with
  | none => none
  | some step => some ((List.range ne).map fun k : Nat => emin * exp (step * k))

/-- `crpix`, ExposureMap.cxx:136: the division is one of integers. -/
noncomputable def crpix (n : Nat) : ℝ := ((n / 2 : Nat) : ℝ) + 0.5

/-- `cdelt`, ExposureMap.cxx:138. -/
noncomputable def cdelt (r : ℝ) (n : Nat) : Option ℝ :=
  if n = 1 then none else some (2 * r / ((n : ℝ) - 1))

/-- The coordinate in the plane of the projection of the centre of a pixel, counted from one:
zero at the reference pixel, which has the direction `crval` (ExposureMap.cxx:137, 145, 188). -/
noncomputable def offset (r : ℝ) (n p : Nat) : Option ℝ :=
  match cdelt r n with
  | none => none
  | some d => some (((p : ℝ) - crpix n) * d)

/-- The part of the map that is computed. -/
structure Sub where
  imin : ℤ
  imax : ℤ
  jmin : ℤ
  jmax : ℤ

/-- The limits of the loops, ExposureMap.cxx:165-174; nothing for the whole map. -/
def bounds (nlon nlat : Nat) : Option Sub → Sub
  | none => ⟨0, nlon, 0, nlat⟩
  | some s => ⟨max 0 s.imin, min nlon s.imax, max 0 s.jmin, min nlat s.jmax⟩

/-- The values of a pixel are stored, ExposureMap.cxx:200-203. -/
def storePixel (nlon nlat ne : Nat) (j i : Nat) (exposure : List ℝ) (m : List ℝ) : Res (List ℝ) :=
  loop (fun k m => do
    let v ← vget exposure k
    vput m ((k * nlat + j) * nlon + i) v) 0 ne m

/-- The image that `computeMap` writes, ExposureMap.cxx:150-206; `f i j` are the exposures, one
for each energy, in the direction of the pixel `(i, j)`, counted from one. -/
def computeMap (nlon nlat ne : Nat) (sub : Option Sub) (f : Nat → Nat → List ℝ) : Res (List ℝ) :=
  let b := bounds nlon nlat sub
  loop (fun j m =>
    loop (fun i m => storePixel nlon nlat ne j i (f (i + 1) (j + 1)) m)
      b.imin.toNat (b.imax - b.imin).toNat m)
    b.jmin.toNat (b.jmax - b.jmin).toNat (List.replicate (ne * nlat * nlon) 0)

/-- The inner loop of `readExposureFile`, ExposureMap.cxx:75-78, with the running index. -/
def readPlane (flat : List ℝ) : Nat → Nat → Res (List ℝ × Nat)
  | 0, indx => .ok ([], indx)
  | n + 1, indx => do
    let v ← vat flat indx
    let r ← readPlane flat n (indx + 1)
    .ok (v :: r.1, r.2)

/-- The loop over energies of `readExposureFile`, ExposureMap.cxx:71-80. -/
def readPlanes (flat : List ℝ) (npix : Nat) : Nat → Nat → Res (List (List ℝ))
  | 0, _ => .ok []
  | ne + 1, indx => do
    let r ← readPlane flat npix indx
    let rest ← readPlanes flat npix ne r.2
    .ok (r.1 :: rest)

/-- An exposure map: `m_ra` and `m_dec`, `m_solidAngles`, `m_energies` and `m_exposure`. -/
structure EMap (D : Type) where
  dirs : List D
  omega : List ℝ
  energies : List ℝ
  planes : List (List ℝ)

/-- An exposure map as it is read: `n` pixels with direction `d j` and solid angle `w j`, and
the exposure `y k j` for each energy, ExposureMap.cxx:59-80. -/
def emap {D : Type} {n : Nat} (d : Fin n → D) (w : Fin n → ℝ) (es : List ℝ) (y : Nat → Fin n → ℝ) : EMap D :=
  ⟨List.ofFn d, List.ofFn w, es, (List.range es.length).map fun k => List.ofFn (y k)⟩

/-- `std::upper_bound`: the first entry that is greater. -/
noncomputable def upperBound (v : List ℝ) (x : ℝ) : Nat :=
  open Classical in v.findIdx (fun b => decide (x < b))

/-- `iterE`, ExposureMap.cxx:94-103, as an index. -/
noncomputable def upperIndex (energies : List ℝ) (e : ℝ) : Res Nat :=
  match energies.head?, energies.getLast? with
  | some first, some last =>
    if e < first then .ok 1
    else if last ≤ e then .ok (energies.length - 1)
    else .ok (upperBound energies e)
  | _, _ => .ub

/-- The exposure at an energy in one pixel, ExposureMap.cxx:105-107. -/
noncomputable def pixelExposure {D : Type} (m : EMap D) (e : ℝ) (kk j : Nat) : Res ℝ :=
  if kk = 0 then .ub
  else do
    let e1 ← vget m.energies (kk - 1)
    let e2 ← vget m.energies kk
    let p1 ← vget m.planes (kk - 1)
    let p2 ← vget m.planes kk
    let y1 ← vget p1 j
    let y2 ← vget p2 j
    if log (e2 / e1) = 0 then .ub
    else .ok (log (e / e1) / log (e2 / e1) * (y2 - y1) + y1)

/-- One energy of `integrateSpatialDist`, ExposureMap.cxx:90-112. -/
noncomputable def exposureAt {D : Type} (m : EMap D) (dist : D → ℝ → ℝ) (e : ℝ) : Res ℝ := do
  let kk ← upperIndex m.energies e
  loop (fun j s => do
    let expsr ← pixelExposure m e kk j
    let d ← vget m.dirs j
    let w ← vget m.omega j
    .ok (s + expsr * dist d e * w)) 0 m.dirs.length 0

/-- A function at all entries of a vector, in order. -/
def forEach {α β : Type} (f : α → Res β) : List α → Res (List β)
  | [] => .ok []
  | a :: l => do
    let b ← f a
    let r ← forEach f l
    .ok (b :: r)

/-- `ExposureMap::integrateSpatialDist`, ExposureMap.cxx:84-114. -/
noncomputable def integrate {D : Type} (m : EMap D) (dist : D → ℝ → ℝ) (energies : List ℝ) :
    Res (List ℝ) := forEach (exposureAt m dist) energies

/-- `MapBase::interpolatePowerLaw`, MapBase.cxx:219-238. -/
noncomputable def powerLaw (x x1 x2 y1 y2 : ℝ) : Res ℝ :=
  if y1 = 0 ∧ y2 = 0 then .ok 0
  else if x1 ≤ 0 ∨ x2 ≤ 0 ∨ y1 ≤ 0 ∨ y2 ≤ 0 then .throws
  else if log (x2 / x1) = 0 then .ub
  else .ok (y1 * (x / x1) ^ (log (y2 / y1) / log (x2 / x1)))

/-- What the integration over the pixels of a source map uses: the direction, solid angle and
value (at an energy) of each pixel, and the parameter that multiplies the map (`Prefactor` of
`SpatialMap`, `Normalization` of `MapCubeFunction2`). -/
structure SrcMap (D : Type) where
  norm : ℝ
  pixels : List (D × ℝ)
  map : D → ℝ → ℝ

/-- `value` of the source, SpatialMap.cxx:68-71 and MapCubeFunction2.cxx:55-60. -/
noncomputable def SrcMap.value {D : Type} (s : SrcMap D) (d : D) (e : ℝ) : ℝ := s.norm * s.map d e

/-- What the exposure map is asked for here, ExposureMap.cxx:299-306: the value of a plane in a
direction, and whether a direction is within the radius of the map. -/
structure Field (D : Type) where
  within : D → Bool
  plane : D → Nat → ℝ

/-- The exposure at one energy of the exposure map, SpatialMap.cxx:108-119, 159-171 and
MapCubeFunction2.cxx:107-118, 160-173. -/
noncomputable def gridExposure {D : Type} (s : SrcMap D) (x : Field D) (k : Nat) (e : ℝ) : ℝ :=
  s.pixels.foldl (fun acc p => if x.within p.1 then acc + p.2 * s.map p.1 e * x.plane p.1 k else acc) 0

/-- `map_exposures`. -/
noncomputable def gridExposures {D : Type} (s : SrcMap D) (x : Field D) (map_energies : List ℝ) : List ℝ :=
  map_energies.mapIdx fun k e => gridExposure s x k e

/-- `indx`, SpatialMap.cxx:122-130, 175-183 and MapCubeFunction2.cxx:121-129, 176-184; nothing
where the difference of unsigned numbers is negative. -/
noncomputable def lowerIndex (energies : List ℝ) (e : ℝ) : Option Nat :=
  match energies.head?, energies.getLast? with
  | some first, some last =>
    if e ≤ first then some 0
    else if last ≤ e then (if energies.length < 2 then none else some (energies.length - 2))
    else some (upperBound energies e - 1)
  | _, _ => none

/-- The interpolation, SpatialMap.cxx:131-135, 184-188 and MapCubeFunction2.cxx:130-134,
185-189. -/
noncomputable def mapExposureAt (map_energies ys : List ℝ) (e : ℝ) : Res ℝ :=
  match lowerIndex map_energies e with
  | none => .ub
  | some k => do
    let x1 ← vget map_energies k
    let x2 ← vget map_energies (k + 1)
    let y1 ← vget ys k
    let y2 ← vget ys (k + 1)
    powerLaw e x1 x2 y1 y2

/-- `integrateSpatialDist` of the two classes, SpatialMap.cxx:94-190 and
MapCubeFunction2.cxx:92-191. -/
noncomputable def mapIntegrate {D : Type} (s : SrcMap D) (x : Field D) (map_energies energies : List ℝ) :
    Res (List ℝ) := forEach (mapExposureAt map_energies (gridExposures s x map_energies)) energies

/-- The spatial part of a diffuse source: a map, or a function without one. -/
inductive Spatial (D : Type)
  | map (s : SrcMap D)
  | func (f : D → ℝ → ℝ)

/-- The spatial part as a function of direction and energy. -/
noncomputable def Spatial.value {D : Type} : Spatial D → D → ℝ → ℝ
  | .map s => s.value
  | .func f => f

/-- `computeExposure`, DiffuseSource.cxx:56-90, with or without an exposure map; `mapBased` is
the flag of the source or of the environment. -/
noncomputable def computeExposure {D : Type} (expmap : Option (EMap D × Field D)) (mapBased : Bool)
    (src : Spatial D) (energies : List ℝ) : Res (List ℝ) :=
  match expmap with
  | none => .throws
  | some (m, x) =>
    if mapBased then
      match src with
      | .map s => mapIntegrate s x m.energies energies
      | .func f => integrate m f energies
    else integrate m src.value energies

end Verif.ExpMap
