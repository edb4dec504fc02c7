import Verif.SkyInt.Model
/-
Model of the limits of the integration over the sky for a map in a WCS projection, and of the
sum over the two parts of the integral.
-/
namespace Verif.SkyInt
open Real

/-- A map: its size, the direction of a pixel if the projection has one, and which directions
are inside. -/
structure SkyMap where
  n1 : ℕ
  n2 : ℕ
  pix : ℕ → ℕ → Option V3
  inside : V3 → Bool

/-- `ProjMap::skyDir`, ProjMap.cxx:113-131: a pixel without a direction gets the origin of the
coordinates (galactic or equatorial, here `origin`). -/
def SkyMap.skyDir (m : SkyMap) (origin : V3) (i j : ℕ) : V3 := (m.pix i j).getD origin

/-- The variables of `minMaxDistPixels`. -/
structure MinMax where
  closest : V3
  minDist : ℝ
  farthest : V3
  maxDist : ℝ

open Classical in
/-- The body of the four loops, WcsMap2.cxx:865-874. -/
noncomputable def MinMax.visit (dir : V3) (s : MinMax) (current : V3) : MinMax :=
  let dist := difference dir current
  let s := if dist < s.minDist then { s with minDist := dist, closest := current } else s
  if dist > s.maxDist then { s with maxDist := dist, farthest := current } else s

/-- `minMaxDistPixels`, WcsMap2.cxx:856-918: the bottom row from the second pixel, the last
column from the second, the top row up to the one before the last, the first column between the
corners. -/
noncomputable def minMaxDistPixels (m : SkyMap) (origin dir : V3) : MinMax :=
  let first := m.skyDir origin 1 1
  let s : MinMax := ⟨first, difference dir first, first, difference dir first⟩
  let s := (List.range' 2 (m.n1 - 1)).foldl (fun s i => s.visit dir (m.skyDir origin i 1)) s
  let s := (List.range' 2 (m.n2 - 1)).foldl (fun s j => s.visit dir (m.skyDir origin m.n1 j)) s
  let s := (List.range' 1 (m.n1 - 1)).foldl (fun s i => s.visit dir (m.skyDir origin i m.n2)) s
  (List.range' 2 (m.n2 - 2)).foldl (fun s j => s.visit dir (m.skyDir origin 1 j)) s

/-- `getCorners`, WcsMap2.cxx:920-926. -/
def corners (m : SkyMap) (origin : V3) : List V3 :=
  [m.skyDir origin 1 1, m.skyDir origin 1 m.n2, m.skyDir origin m.n1 m.n2, m.skyDir origin m.n1 1]

/-- The search over the corners, MapBase.cxx:171-180.  An undefined angle is neither smaller nor
larger. -/
noncomputable def phiSearch (dir : V3) (R : Rot) : ℝ × ℝ → List V3 → ℝ × ℝ
  | s, [] => s
  | s, c :: cs =>
    match phiValue (c.dot dir) c R with
    | none => phiSearch dir R s cs
    | some phi => phiSearch dir R (if phi < s.1 then phi else s.1, if phi > s.2 then phi else s.2) cs

/-- The angles are remapped, MapBase.cxx:181-195. -/
noncomputable def remap (s : ℝ × ℝ) : ℝ × ℝ :=
  if s.2 - s.1 > π then
    if s.1 < 0 then (s.2, 2 * π + s.1)
    else if s.2 < 0 then (s.2 - 2 * π, s.1)
    else s
  else s

/-- The limits. -/
structure Limits where
  mumin : ℝ
  mumax : ℝ
  phimin : ℝ
  phimax : ℝ

/-- `getDiffRespLimits_wcs`, MapBase.cxx:149-197; nothing if the angle of the first corner is
undefined. -/
noncomputable def limits (m : SkyMap) (origin : V3) (ra dec : ℝ) : Option Limits :=
  let dir := sphere ra dec
  let R := Rot.make ra dec
  let mm := minMaxDistPixels m origin dir
  let mumin := mm.farthest.dot dir
  if m.inside dir then some ⟨mumin, 1, 0, 2 * π⟩
  else
    let mumax := mm.closest.dot dir
    match corners m origin with
    | [] => none
    | c :: cs =>
      match phiValue (c.dot dir) c R with
      | none => none
      | some phi =>
        let s := remap (phiSearch dir R (phi, phi) cs)
        some ⟨mumin, mumax, s.1, s.2⟩

/-- The product of response and source at a pair of integration variables,
DiffRespIntegrand2.cxx:117-141; `F` stands for the product at a direction, which is zero more
than 90 degrees from the axis of the instrument. -/
noncomputable def value (F : V3 → ℝ) (R : Rot) (mu phi : ℝ) : ℝ :=
  match srcDir mu phi R with
  | none => 0
  | some d => F d

/-- `do2DIntegration`, DiffRespIntegrand2.cxx:36-49, with exact integrals in the place of
`dgaus8`. -/
noncomputable def integrate2 (F : V3 → ℝ) (R : Rot) (mumin mumax phimin phimax : ℝ) : ℝ :=
  ∫ phi in phimin..phimax, ∫ mu in mumin..mumax, value F R mu phi

/-- The response of an event to a source that is not a spatial function and not integrated on
its own map, Event.cxx:204 and 212-225; `mu2s` and `mumx` are the cosines of the containment
radius and of the largest separation. -/
noncomputable def response (F : V3 → ℝ) (R : Rot) (mu2s mumx : ℝ) (l : Limits) : ℝ :=
  let mumin := max l.mumin mumx
  if mumin > mu2s then integrate2 F R mumin l.mumax l.phimin l.phimax
  else integrate2 F R mu2s l.mumax l.phimin l.phimax + integrate2 F R mumin mu2s l.phimin l.phimax

end Verif.SkyInt
