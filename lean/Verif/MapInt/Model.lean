import Verif.Basic
import Mathlib.Analysis.SpecialFunctions.Log.Basic
/-
Integrals of maps, coarser maps, and the conversions between counts and intensities
(src/WcsMap2.cxx, src/ProjMap.cxx, src/CountsMap.cxx, src/HealpixProjMap.cxx,
src/CountsMapHealpix.cxx).

Pixel values are reals (the program stores floats).  A division by zero, after which the program
goes on with an infinity or no number, is the outcome `ub`.
-/
namespace Verif.MapInt

/-- A plane of an image: rows of pixels, `plane[j][i]` (Likelihood/WcsMap2.h: `ImagePlane_t`). -/
abbrev Plane := List (List ℝ)

/-! ### Folding a vector of pixels -/

/-- One row of `foldVector` and of `fillSolidAngles` (src/WcsMap2.cxx:81-85, 99-103): the next
`n` values, zeros once the vector is used up; and what is left of the vector. -/
def foldRow : Nat → List ℝ → List ℝ × List ℝ
  | 0, l => ([], l)
  | n + 1, [] => (0 :: (foldRow n []).1, [])
  | n + 1, x :: l => (x :: (foldRow n l).1, (foldRow n l).2)

/-- The rows of a plane (src/WcsMap2.cxx:80-87); with the solid angles of the pixels as vector it
is `fillSolidAngles` (src/WcsMap2.cxx:93-106), for an empty `image_out`. -/
def foldPlane (n1 : Nat) : Nat → List ℝ → Plane × List ℝ
  | 0, l => ([], l)
  | n + 1, l => ((foldRow n1 l).1 :: (foldPlane n1 n (foldRow n1 l).2).1, (foldPlane n1 n (foldRow n1 l).2).2)

/-- `WcsMap2::foldVector` (src/WcsMap2.cxx:71-90). -/
def foldVector (n1 n2 : Nat) : Nat → List ℝ → List Plane
  | 0, _ => []
  | n + 1, l => (foldPlane n1 n2 l).1 :: foldVector n1 n2 n (foldPlane n1 n2 l).2

/-! ### Counts and intensities -/

/-- `a / b`, without a value if `b` vanishes. -/
noncomputable def divide (a b : ℝ) : Res ℝ := by
  classical exact if b = 0 then .ub else .ok (a / b)

/-- The body of the loops of `convertToDifferential` (src/WcsMap2.cxx:116-121) for one row. -/
noncomputable def diffRow (f : ℝ) (sa row : List ℝ) : Res (List ℝ) :=
  loop (fun i r => do
    let v ← vget r i
    let w ← vget sa i
    let q ← divide f w
    vset r i (v * q)) 0 row.length row

/-- One plane of `convertToDifferential` (src/WcsMap2.cxx:114-122): as many rows as there are
rows of solid angles. -/
noncomputable def diffPlane (width : ℝ) (sa plane : Plane) : Res Plane := do
  let f ← divide 1 width
  loop (fun j p => do
    let w ← vget sa j
    let row ← vget p j
    let row' ← diffRow f w row
    vset p j row') 0 sa.length plane

/-- `WcsMap2::convertToDifferential` (src/WcsMap2.cxx:109-124). -/
noncomputable def toDifferential (image : List Plane) (widths : List ℝ) (sa : Plane) : Res (List Plane) :=
  loop (fun k im => do
    let p ← vget im k
    let w ← vget widths k
    let p' ← diffPlane w sa p
    vset im k p') 0 widths.length image

/-- `WcsMap2::convertToIntegral` (src/WcsMap2.cxx:126-144); the state is the vector of counts
and the running index. -/
def toIntegral (out : List ℝ) (image : List Plane) (widths : List ℝ) (sa : Plane) : Res (List ℝ) := do
  let r ← loop (fun k st => do
    let p ← vget image k
    let f ← vget widths k
    loop (fun j st => do
      let w ← vget sa j
      let row ← vget p j
      loop (fun i (st : List ℝ × Nat) => do
        let v ← vget row i
        let s ← vget w i
        let o ← vset st.1 st.2 (v * f * s)
        .ok (o, st.2 + 1)) 0 row.length st) 0 sa.length st) 0 widths.length (out, 0)
  .ok r.1

/-- `CountsMapBase::fillEnergyBinWidths` (src/CountsMapBase.cxx:46-55): the widths between the
edges. -/
def binWidths : List ℝ → List ℝ
  | a :: b :: l => (b - a) :: binWidths (b :: l)
  | _ => []

/-! ### Maps -/

/-- The parts of a map that the integrals depend on (Likelihood/WcsMap2.h:150-171,
Likelihood/ProjMap.h:120-140). -/
structure WMap where
  /-- `m_isPeriodic` -/
  periodic : Bool
  /-- `m_naxis1` -/
  n1 : Nat
  /-- `m_naxis2` -/
  n2 : Nat
  /-- `m_crpix1`, `m_crpix2` -/
  crpix : ℝ × ℝ
  /-- `m_cdelt1`, `m_cdelt2` -/
  cdelt : ℝ × ℝ
  /-- `m_energies` -/
  energies : List ℝ
  /-- `m_image` -/
  image : List Plane
  /-- `m_solidAngles`, empty until they are asked for -/
  solid : Plane
  /-- `m_mapIntegrals` -/
  integrals : List ℝ
  /-- `m_mapIntegral` -/
  total : ℝ

/-- The solid angle of a pixel in the projection with given reference pixel and pixel size, as
a function of the pixel coordinates, which start at one (src/WcsMap2.cxx:758-803: `solidAngle`).
The projection itself is a library. -/
abbrev Omega := ℝ × ℝ → ℝ × ℝ → Nat → Nat → ℝ

/-- `WcsMap2::solidAngles` (src/WcsMap2.cxx:806-818): computed at the first call, with the
first coordinate as the first index. -/
def WMap.solidAngles (Ω : Omega) (m : WMap) : Plane :=
  if m.solid.isEmpty then
    (List.range m.n1).map fun i => (List.range m.n2).map fun j => Ω m.crpix m.cdelt (i + 1) (j + 1)
  else m.solid

/-- The integral of one plane (src/WcsMap2.cxx:933-942); `sa` is `solidAngles()`. -/
def planeIntegral (sa plane : Plane) (n1 n2 : Nat) : Res ℝ :=
  loop (fun j s => loop (fun i s => do
    let w ← vget sa i
    let w' ← vget w j
    let r ← vget plane j
    let v ← vget r i
    .ok (s + w' * v)) 0 n1 s) 0 n2 0

/-- The integral over energy (src/WcsMap2.cxx:944-956). Without energies the bound of the loop
wraps around. -/
noncomputable def energyIntegral (es vs : List ℝ) : Res ℝ :=
  match es with
  | [] => .ub
  | [_] => vget vs 0
  | _ => loop (fun k s => do
    let v0 ← vget vs k
    let v1 ← vget vs (k + 1)
    let e0 ← vget es k
    let e1 ← vget es (k + 1)
    .ok (s + (v1 * e1 + v0 * e0) / 2 * Real.log (e1 / e0))) 0 (es.length - 1) 0

/-- `WcsMap2::computeMapIntegrals` (src/WcsMap2.cxx:929-957). -/
noncomputable def WMap.computeIntegrals (Ω : Omega) (m : WMap) : Res WMap := do
  let vs ← loop (fun k vs => do
    let p ← vget m.image k
    let s ← planeIntegral (m.solidAngles Ω) p m.n1 m.n2
    .ok (vs ++ [s])) 0 m.energies.length []
  let t ← energyIntegral m.energies vs
  .ok { m with solid := m.solidAngles Ω, integrals := vs, total := t }

/-- Number of energies at which `std::upper_bound` stops (src/ProjMap.cxx:147-150). -/
noncomputable def upperBound (es : List ℝ) (e : ℝ) : Nat := by
  classical exact es.findIdx (fun b => decide (e < b))

/-- `ProjMap::mapIntegral(double)` (src/ProjMap.cxx:142-167), for a map that does not enforce its
range of energies.  The logarithm of a vanishing ratio is minus infinity: the result is zero
above the plane and infinite below; a ratio to zero gives no number. -/
noncomputable def WMap.mapIntegral (m : WMap) (energy : ℝ) : Res ℝ := by
  classical exact
  let k := if 1 < m.energies.length then upperBound m.energies energy - 1 else 0
  match m.energies[k]? with
  | none => .throws
  | some e0 =>
    if energy = e0 then
      match m.integrals[k]? with
      | none => .throws
      | some v => .ok v
    else if m.energies.length = 1 then .ub
    else do
      let k := if k = m.energies.length - 1 then m.energies.length - 2 else k
      let v0 ← vget m.integrals k
      let v1 ← vget m.integrals (k + 1)
      let e0 ← vget m.energies k
      let e1 ← vget m.energies (k + 1)
      let t := Real.log (energy / e0) / Real.log (e1 / e0)
      if v0 = 0 then .ub
      else if v1 = 0 then (if 0 < t then .ok 0 else .ub)
      else .ok (v0 * Real.exp (t * Real.log (v1 / v0)))

/-! ### From counts to a map and back -/

/-- What a map takes from a counts map: the sizes, the edges of the energy bins, the counts and
the solid angles of `pixels()`, row after row (src/CountsMap.cxx:569-603). -/
structure Counts where
  /-- `naxis1()` -/
  n1 : Nat
  /-- `naxis2()` -/
  n2 : Nat
  /-- `crpix1()`, `crpix2()` -/
  crpix : ℝ × ℝ
  /-- `cdelt1()`, `cdelt2()` -/
  cdelt : ℝ × ℝ
  /-- `energies()`: the edges -/
  edges : List ℝ
  /-- `data()` -/
  data : List ℝ
  /-- `pixels()[…].solidAngle()` -/
  angles : List ℝ

/-- `CountsMapBase::fillEnergyBinGeomCenters` (src/CountsMapBase.cxx:57-66). -/
noncomputable def binCenters : List ℝ → List ℝ
  | a :: b :: l => Real.sqrt (b * a) :: binCenters (b :: l)
  | _ => []

/-- The conversion that was asked for (src/WcsMap2.cxx:405-414). -/
noncomputable def convert (intensity : Bool) (im : List Plane) (widths : List ℝ) (sa : Plane) : Res (List Plane) :=
  if intensity then toDifferential im widths sa else .ok im

/-- `WcsMap2::WcsMap2(const CountsMap &, ConversionType)` (src/WcsMap2.cxx:349-419); `intensity`
tells the two conversions apart.  `periodic` (src/WcsMap2.cxx:377-380) does not matter here and is
an argument. -/
noncomputable def ofCounts (Ω : Omega) (c : Counts) (intensity periodic : Bool) : Res WMap := do
  let sa := (foldPlane c.n1 c.n2 c.angles).1
  let im := foldVector c.n1 c.n2 (c.edges.length - 1) c.data
  let im' ← convert intensity im (binWidths c.edges) sa
  WMap.computeIntegrals Ω ⟨periodic, c.n1, c.n2, c.crpix, c.cdelt, binCenters c.edges, im', sa, [], 0⟩

/-- `CountsMap::CountsMap(const WcsMap2 &, const CountsMap &)` (src/CountsMap.cxx:208-222). -/
def countsOf (Ω : Omega) (m : WMap) (c : Counts) : Res Counts := do
  let d ← toIntegral c.data m.image (binWidths c.edges) (m.solidAngles Ω)
  .ok { c with data := d }

/-! ### Coarser maps -/

/-- `image[j][i] += v`: undefined out of range. -/
def add2 (p : Plane) (j i : Nat) (v : ℝ) : Res Plane := do
  let row ← vget p j
  let x ← vget row i
  let row' ← vset row i (x + v)
  vset p j row'

/-- A plane of zeros. -/
def zeros (n1 n2 : Nat) : Plane := List.replicate n2 (List.replicate n1 0)

/-- The size of an axis after rebinning (src/WcsMap2.cxx:961-970); a factor of zero is a division by zero. -/
def coarse (n f : Nat) : Nat :=
  let d := f - n % f
  (n + (if d = f then 0 else d)) / f

/-- The sums of the solid angles (src/WcsMap2.cxx:1014-1028). -/
def coarseAngles (sa : Plane) (n1 n2 f : Nat) : Res Plane :=
  loop (fun i p => loop (fun j p => do
    let w ← vget sa i
    let w' ← vget w j
    add2 p (j / f) (i / f) w') 0 n2 p) 0 n1 (zeros (coarse n1 f) (coarse n2 f))

/-- The sums of the pixels (src/WcsMap2.cxx:1030-1048). -/
def coarsePlane (sa plane : Plane) (n1 n2 f : Nat) (average : Bool) : Res Plane :=
  loop (fun i p => loop (fun j p => do
    let r ← vget plane j
    let v ← vget r i
    if average then do
      let w ← vget sa i
      let w' ← vget w j
      add2 p (j / f) (i / f) (v * w')
    else add2 p (j / f) (i / f) v) 0 n2 p) 0 n1 (zeros (coarse n1 f) (coarse n2 f))

/-- The division by the solid angles (src/WcsMap2.cxx:1049-1055). -/
noncomputable def average (p w : Plane) (n1 n2 : Nat) : Res Plane :=
  loop (fun ii p => loop (fun jj p => do
    let row ← vget p jj
    let v ← vget row ii
    let wr ← vget w jj
    let s ← vget wr ii
    let q ← divide v s
    let row' ← vset row ii q
    vset p jj row') 0 n2 p) 0 n1 p

/-- The solid angles are summed only for averages (src/WcsMap2.cxx:1015). -/
def weights (avg : Bool) (sa : Plane) (n1 n2 f : Nat) : Res Plane :=
  if avg then coarseAngles sa n1 n2 f else .ok []

/-- The sums are divided only for averages (src/WcsMap2.cxx:1049). -/
noncomputable def finish (avg : Bool) (q w : Plane) (n1 n2 : Nat) : Res Plane :=
  if avg then average q w n1 n2 else .ok q

/-- `WcsMap2::rebin` (src/WcsMap2.cxx:959-1062). -/
noncomputable def WMap.rebin (Ω : Omega) (m : WMap) (f : Nat) (avg : Bool) : Res WMap :=
  if f = 0 then .ub else do
    let n1 := coarse m.n1 f
    let n2 := coarse m.n2 f
    let sa := m.solidAngles Ω
    let w ← weights avg sa m.n1 m.n2 f
    let im ← loop (fun k im => do
      let p ← vget m.image k
      let q ← coarsePlane sa p m.n1 m.n2 f avg
      let q' ← finish avg q w n1 n2
      vset im k q') 0 m.energies.length m.image
    WMap.computeIntegrals Ω { m with
      n1 := n1, n2 := n2,
      crpix := ((m.crpix.1 - 0.5) / f + 0.5, (m.crpix.2 - 0.5) / f + 0.5),
      cdelt := (m.cdelt.1 * f, m.cdelt.2 * f),
      image := im, solid := [] }

/-! ### Healpix -/

/-- `HealpixProjMap::convertToDifferential` (src/HealpixProjMap.cxx:83-93), a plane being a list of
pixels. -/
noncomputable def hpxDifferential (image : List (List ℝ)) (widths : List ℝ) (npix : Nat) (sa : ℝ) : Res (List (List ℝ)) :=
  loop (fun k im => do
    let p ← vget im k
    let w ← vget widths k
    let f ← divide 1 (sa * w)
    let p' ← loop (fun j p => do
      let v ← vget p j
      vset p j (v * f)) 0 npix p
    vset im k p') 0 widths.length image

/-- `HealpixProjMap::convertToIntegral` (src/HealpixProjMap.cxx:96-108): the vector is passed by
value; the result is what the caller's vector holds afterwards. -/
def hpxIntegral (out : List ℝ) (image : List (List ℝ)) (widths : List ℝ) (npix : Nat) (sa : ℝ) : Res (List ℝ) := do
  let _ ← loop (fun k st => do
    let p ← vget image k
    let w ← vget widths k
    loop (fun j (st : List ℝ × Nat) => do
      let v ← vget p j
      let o ← vset st.1 st.2 (v * (sa * w))
      .ok (o, st.2 + 1)) 0 npix st) 0 widths.length (out, 0)
  .ok out

/-- `CountsMapHealpix::CountsMapHealpix(const HealpixProjMap &, const CountsMapHealpix &)`
(src/CountsMapHealpix.cxx:86-100): the counts, from those of the given counts map. -/
def hpxCountsOf (image : List (List ℝ)) (edges data : List ℝ) (npix : Nat) (sa : ℝ) : Res (List ℝ) := do
  let widths ← loop (fun k ws => do
    let b ← vget edges (k + 1)
    let a ← vget edges k
    vset ws k (b - a)) 0 edges.length (List.replicate (edges.length - 1) 0)
  hpxIntegral data image widths npix sa

end Verif.MapInt
