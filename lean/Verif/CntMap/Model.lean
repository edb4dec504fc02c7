import Verif.Basic
import Verif.HistND.Model
import Verif.CntMap.Types
import Mathlib.Analysis.SpecialFunctions.Log.Basic
import Mathlib.Algebra.Order.Floor.Ring
import Mathlib.Algebra.Order.Archimedean.Real.Basic
/-
Model of counts maps: src/CountsMap.cxx, src/CountsMapBase.cxx, src/CountsMapHealpix.cxx.  The
histogram is that of Verif.HistND.  The binners are those of the library evtbin, modelled by what they
compute: the bin a number falls in, -1 if there is none.  The projection (library astro) is an
arbitrary function.  Floating point numbers are real numbers.  Not modelled: headers copied from the
event file, good time intervals.
-/
namespace Verif.CntMap
open Verif.HistND

/-- `evtbin::LinearBinner(0.5, n + 0.5, 1.)` as used in CountsMap.cxx:60-63, 198-199. -/
noncomputable def pixelBinner (n : Nat) : Binner ℝ :=
  ⟨n, fun v => open Classical in if v < 0.5 ∨ (n : ℝ) + 0.5 ≤ v then -1 else ⌊v - 0.5⌋⟩

/-- `evtbin::OrderedBinner` as used in CountsMap.cxx:99-105, 181-187, CountsMapBase.cxx:283-292: the
first of the intervals the number is in. -/
noncomputable def orderedBinner (l : List Interval) : Binner ℝ :=
  ⟨l.length, fun v => open Classical in
    match l.findIdx? (fun b => decide (b.lo ≤ v ∧ v < b.hi)) with
    | some i => (i : Int)
    | none => -1⟩

/-- `evtbin::LogBinner` as used in CountsMap.cxx:66-67. -/
noncomputable def logBinner (a b : ℝ) (n : Nat) : Binner ℝ :=
  ⟨n, fun v => open Classical in
    if v < a ∨ b ≤ v then -1 else ⌊(n : ℝ) * Real.log (v / a) / Real.log (b / a)⌋⟩

/-- Bins between successive energies, CountsMap.cxx:99-103, CountsMapBase.cxx:286-289. -/
def binsOf (es : List ℝ) : List Interval := (es.zip es.tail).map fun p => ⟨p.1, p.2⟩

/-- The intervals of the energy binner, CountsMap.cxx:99-103, 179-184; for `LogBinner` those of
its `getInterval`. -/
noncomputable def intervals : Bins → Res (List Interval)
  | .log a b n => .ok ((List.range n).map fun k : Nat =>
      ⟨a * Real.exp (Real.log (b / a) / n * k), a * Real.exp (Real.log (b / a) / n * (k + 1))⟩)
  | .edges [] => .ub
  | .edges es => .ok (binsOf es)
  | .pairs [] _ => .ub
  | .pairs _ [] => .ub
  | .pairs as bs => .ok ((as.zip bs).map fun p => ⟨p.1, p.2⟩)

/-- The energy binner itself. -/
noncomputable def energyBinner (b : Bins) (l : List Interval) : Binner ℝ :=
  match b with
  | .log a b n => logBinner a b n
  | _ => orderedBinner l

/-- `m_energies` from the energy binner, CountsMap.cxx:376-384: without bins the interval is the
default one, of length zero at zero. -/
noncomputable def energiesOf (l : List Interval) : List ℝ :=
  l.map Interval.lo ++ [match l.getLast? with | some b => b.hi | none => 0]

/-- The step of the energy axis, CountsMap.cxx:359-360, with `nenergies` as given by the
constructors, CountsMap.cxx:69-71, 106-109, 188-190; `none` if not a number. -/
noncomputable def step3 : Bins → Option ℝ
  | .log a b n => if n = 1 then none else some (Real.log (b / a) / (n - 1))
  | .edges es =>
    if es.length = 1 then none
    else some (Real.log (es.getLastD 0 / es.headD 0) / (es.length - 1))
  | .pairs as bs => some (Real.log (bs.getLastD 0 / as.headD 0) / as.length)

/-- A counts map. -/
structure Map where
  geom : Geom
  raField : String
  decField : String
  bins : List Interval
  energies : List ℝ
  hist : Hist ℝ ℝ
  cdelt3 : Option ℝ

/-- The sky coordinates set by `init`, CountsMap.cxx:346-363. -/
noncomputable def geomOf (proj : String) (nx ny : Nat) (ra dec sx sy rot : ℝ) (gal : Bool) : Geom where
  proj := proj
  crpix := (((nx : ℝ) + 1) / 2, ((ny : ℝ) + 1) / 2)
  crval := (ra, dec)
  cdelt := (-sx, sy)
  rot := rot
  gal := gal

/-- The constructors for events, CountsMap.cxx:43-193 with `init`, :331-385. -/
noncomputable def make (g : Geom) (raField decField : String) (nx ny : Nat) (b : Bins) : Res Map := do
  let l ← intervals b
  let h ← Hist.new [pixelBinner nx, pixelBinner ny, energyBinner b l]
  .ok ⟨g, raField, decField, l, energiesOf l, h, step3 b⟩

variable (project : Geom → ℝ × ℝ → ℝ × ℝ)

/-- Pixel coordinates and energy of an event, CountsMap.cxx:443-452. -/
def coords (m : Map) (e : Event) : List ℝ :=
  let c := project m.geom (e m.raField, e m.decField)
  [c.1, c.2, e "ENERGY"]

/-- `binInput`, CountsMap.cxx:431-456. -/
def binInput (m : Map) : List Event → Res Map
  | [] => .ok m
  | e :: es => do
    let h ← m.hist.fillBin (coords project m e) 1
    binInput { m with hist := h } es

/-- Several tables after each other, gtcntsmap.cxx:136-141. -/
def binAll (m : Map) : List (List Event) → Res Map
  | [] => .ok m
  | t :: ts => do
    let m' ← binInput project m t
    binAll m' ts

/-- `withinBounds`, CountsMap.cxx:417-424. -/
def withinBounds (m : Map) (dir : ℝ × ℝ) (energy : ℝ) (border : Nat) : Res Bool := do
  let c := project m.geom dir
  let i ← m.hist.binIndexOf [c.1, c.2, energy] border
  .ok i.isSome

/-- `writeOutput`, CountsMap.cxx:458-473, `replace_image_from_hist_wcs`, FileUtils.cxx:263-287, and
`setKeywords`, CountsMap.cxx:500-520.  The table of energy bins has keV. -/
noncomputable def writeOutput (m : Map) : Res File := do
  let bx ← vget m.hist.binners 0
  let by' ← vget m.hist.binners 1
  let bz ← vget m.hist.binners 2
  .ok {
    nx := bx.n, ny := by'.n, nz := bz.n
    image := m.hist.data
    ebounds := m.bins.map fun b => (b.lo * 1000, b.hi * 1000)
    ctype := if m.geom.gal then ("GLON", m.geom.proj) else (m.raField, m.geom.proj)
    crpix := m.geom.crpix, crval := m.geom.crval, cdelt := m.geom.cdelt, crota := m.geom.rot
    cdelt3 := m.cdelt3 }

/-- `read_ebounds_to_vector`, FileUtils.cxx:59-74: without rows the upper bound is not
initialised. -/
noncomputable def readEnergies : List (ℝ × ℝ) → Res (List ℝ)
  | [] => .ub
  | r :: rs => .ok ((r :: rs).map (fun x => x.1 / 1000) ++ [((r :: rs).getLast (by simp)).2 / 1000])

/-- The sky coordinates read by `readKeywords`, CountsMap.cxx:299-328. -/
def geomOfFile (f : File) : Geom where
  proj := f.ctype.2
  crpix := f.crpix
  crval := f.crval
  cdelt := f.cdelt
  rot := f.crota
  gal := f.ctype.1 == "GLON"

/-- The constructor for a file, CountsMap.cxx:194-206, with `readEbounds`, CountsMapBase.cxx:277-293,
and `readImageData`, CountsMap.cxx:289-297: the image replaces the data of the histogram. -/
noncomputable def read (f : File) : Res Map := do
  let es ← readEnergies f.ebounds
  let h : Hist ℝ ℝ ← Hist.new [pixelBinner f.nx, pixelBinner f.ny, orderedBinner (binsOf es)]
  .ok ⟨geomOfFile f, "RA", "DEC", binsOf es, es, { h with data := f.image }, f.cdelt3⟩

/-- `getAxisVector` for a pixel axis, CountsMapBase.cxx:398-411: the bounds of the pixels. -/
noncomputable def axisVector (n : Nat) : List ℝ :=
  (List.range n).map (fun j : Nat => 0.5 + (j : ℝ)) ++ [0.5 + ((n - 1 : Nat) : ℝ) + 1]

/-- One pixel of `getPixels`, CountsMap.cxx:589-611: direction of the middle and solid angle between
the corners; if one of them is not on the sky, a default direction without solid angle. -/
noncomputable def pixelAt {D : Type} (dir : ℝ × ℝ → Option D) (solid : D → D → D → D → ℝ) (dflt : D)
    (lon lon' lat lat' : ℝ) : D × ℝ :=
  match dir ((lon + lon') / 2, (lat + lat') / 2), dir (lon, lat), dir (lon, lat'), dir (lon', lat'),
      dir (lon', lat) with
  | some d, some a, some b, some c, some e => (d, solid a b c e)
  | _, _, _, _, _ => (dflt, 0)

/-- `getPixels`, CountsMap.cxx:569-613. -/
noncomputable def getPixels {D : Type} (dir : ℝ × ℝ → Option D) (solid : D → D → D → D → ℝ) (dflt : D)
    (nx ny : Nat) : List (D × ℝ) :=
  let lons := axisVector nx
  let lats := axisVector ny
  (lats.zip lats.tail).flatMap fun q => (lons.zip lons.tail).map fun p =>
    pixelAt dir solid dflt p.1 p.2 q.1 q.2

/-! ### HEALPix -/

/-- A counts map with HEALPix pixels: `pix` finds the pixel of a direction, and the histogram has a
binner for pixel numbers and one for energies. -/
structure HpxMap where
  pix : ℝ × ℝ → Int
  gal : Bool
  hist : Hist ℝ ℝ

/-- Indices as numbers, as `binInput` and `withinBounds` put them together,
CountsMapHealpix.cxx:176-177, 192-193. -/
def hpxValues (m : HpxMap) (s : ℝ × ℝ) (energy : ℝ) : Res (List ℝ) := do
  let b ← vget m.hist.binners 1
  .ok [((m.pix s : Int) : ℝ), ((b.index energy : Int) : ℝ)]

/-- `CountsMapHealpix::binInput`, CountsMapHealpix.cxx:163-180. -/
def hpxBinInput (m : HpxMap) : List Event → Res HpxMap
  | [] => .ok m
  | e :: es => do
    let v ← hpxValues m (if m.gal then (e "L", e "B") else (e "RA", e "DEC")) (e "ENERGY")
    let h ← m.hist.fillBin v 1
    hpxBinInput { m with hist := h } es

/-- `CountsMapHealpix::withinBounds`, CountsMapHealpix.cxx:183-196. -/
def hpxWithinBounds (m : HpxMap) (s : ℝ × ℝ) (energy : ℝ) (border : Nat) : Res Bool := do
  let v ← hpxValues m s energy
  let i ← m.hist.binIndexOf v border
  .ok i.isSome

end Verif.CntMap
