import Verif.Vec
import Mathlib.Analysis.SpecialFunctions.Log.Basic
import Mathlib.Analysis.SpecialFunctions.Trigonometric.Inverse
/-
Model of src/ExposureCube.cxx and Likelihood/ExposureCube.h, of `PointSource::Aeff` and the flux
densities in src/PointSource.cxx, of src/Pixel.cxx and of `computeModelMap` in src/SourceModel.cxx.
`double` is `ℝ`.
-/
namespace Verif.Pix
open Verif Real

/-! ### The livetime cube -/

/-- A bin of the livetime cube at a direction of the sky: the livetime and the position in the
instrument that is handed to the function that is integrated (the azimuth in degrees as
`AeffWrapper` hands it on, ExposureCube.h:152-163; zero for cubes without azimuth). -/
structure Cell where
  lt : ℝ
  cosTheta : ℝ
  phi : ℝ

/-- What an object derived from `AeffBase` remembers, ExposureCube.h:122-123. -/
abbrev Memo := ℝ × ℝ → Option ℝ

/-- `AeffBase::operator()`, ExposureCube.cxx:95-104. -/
noncomputable def call (f : ℝ → ℝ → ℝ) (c : Memo) (cosTheta phi : ℝ) : ℝ × Memo :=
  match c (cosTheta, phi) with
  | some v => (v, c)
  | none => (f cosTheta phi, Function.update c (cosTheta, phi) (some (f cosTheta phi)))

/-- The integral over the bins of a direction, `map_tools::Exposure` (not part of the code): livetime
times the value in the middle of the bin. -/
noncomputable def integrate (f : ℝ → ℝ → ℝ) : List Cell → Memo → ℝ × Memo
  | [], c => (0, c)
  | x :: xs, c =>
    let r := call f c x.cosTheta x.phi
    let s := integrate f xs r.2
    (x.lt * r.1 + s.1, s.2)

/-- An exposure cube at one direction, ExposureCube.h:165-177: the livetimes, those weighted with the
fraction of live time if the file has them, and the two factors of the efficiency at an energy. -/
structure Cube where
  cells : List Cell
  weighted : Option (List Cell)
  factors : Option (ℝ → ℝ × ℝ)

/-- The bins that are used, ExposureCube.h:71-85. -/
def Cube.pick (q : Cube) (w : Bool) : List Cell :=
  match w, q.weighted with
  | true, some l => l
  | _, _ => q.cells

/-- The factors of the efficiency, ExposureCube.h:92-96. -/
noncomputable def Cube.fac (q : Cube) (energy : ℝ) : ℝ × ℝ :=
  match q.factors with
  | some g => g energy
  | none => (1, 0)

/-- `ExposureCube::value` with efficiency, ExposureCube.h:89-109. -/
noncomputable def Cube.value (q : Cube) (f : ℝ → ℝ → ℝ) (energy : ℝ) : Res ℝ :=
  let g := q.fac energy
  let r := integrate f (q.pick false) (fun _ => none)
  open Classical in
  let e := if g.2 ≠ 0 then g.1 * r.1 + g.2 * (integrate f (q.pick true) r.2).1 else g.1 * r.1
  if e < 0 then .throws else .ok e

/-! ### The effective area for a point source -/

/-- A response at one energy and position in the instrument: its number, the effective area, and the
integral of the point-spread function over the region. -/
structure Resp where
  id : ℤ
  aeff : ℝ
  psf : ℝ

/-- `PointSource::Aeff::value`, PointSource.cxx:510-562: the loop over the responses; `vals` are the
integrals already computed. -/
noncomputable def areaLoop (useEdisp : Bool) : List Resp → (ℤ → Option ℝ) → ℝ → Res ℝ
  | [], _, acc => .ok (if acc < 0 then 0 else acc)
  | r :: rs, vals, acc =>
    open Classical in
    if r.aeff < 1 / 10 then .ok 0 else
    if useEdisp then .throws else
    areaLoop useEdisp rs (Function.update vals r.id (some ((vals r.id).getD r.psf)))
      (acc + (vals r.id).getD r.psf * r.aeff)

/-- `PointSource::Aeff::value`, PointSource.cxx:510-562. -/
noncomputable def area (useEdisp : Bool) (rs : List Resp) : Res ℝ := areaLoop useEdisp rs (fun _ => none) 0

/-! ### Flux densities of a point source -/

/-- A direction of the sky: right ascension and declination in degrees. -/
abbrev Dir := ℝ × ℝ

/-- `SkyDir::difference`, the angle between two directions in radians (not part of the code). -/
noncomputable def difference (a b : Dir) : ℝ :=
  arccos (sin (a.2 * π / 180) * sin (b.2 * π / 180) +
    cos (a.2 * π / 180) * cos (b.2 * π / 180) * cos ((a.1 - b.1) * π / 180))

/-- A point source: its direction, its spectrum, the derivatives of the spectrum, the value of the
parameter "Prefactor" (if there is one), and the response as a function of inclination, azimuth,
energy, separation and event type. -/
structure Pt where
  dir : Dir
  spectrum : ℝ → ℝ
  deriv : String → ℝ → ℝ
  prefactor : Option ℝ
  resp : ℝ → ℝ → ℝ → ℝ → ℕ → ℝ

/-- `fluxDensity` in instrument coordinates without cache, PointSource.cxx:120-140. -/
noncomputable def Pt.fluxDensity (p : Pt) (inc phi energy : ℝ) (appDir : Dir) (t : ℕ) : ℝ :=
  p.spectrum energy * p.resp inc phi energy (difference appDir p.dir * 180 / π) t

/-- The conversion of a number to a direction: the constructor of `SkyDir` with one argument (right
ascension, the declination is zero), which makes the call in PointSource.cxx:219 possible. -/
def dirOfNumber (x : ℝ) : Dir := (x, 0)

/-- The value of "Prefactor" if it is asked for and not zero, PointSource.cxx:216-218; asking for a
parameter that does not exist is an error. -/
noncomputable def Pt.usePrefactor (p : Pt) (name : String) : Res (Option ℝ) :=
  open Classical in
  if name = "Prefactor" then
    match p.prefactor with
    | none => .throws
    | some v => .ok (if v ≠ 0 then some v else none)
  else .ok none

/-- `fluxDensityDeriv` in instrument coordinates without cache, PointSource.cxx:206-239.  The fourth
argument of the call in line 219 is the separation, a number. -/
noncomputable def Pt.fluxDensityDeriv (p : Pt) (inc phi energy : ℝ) (appDir : Dir) (t : ℕ) (name : String) : Res ℝ := do
  let separation := difference appDir p.dir * 180 / π
  match ← p.usePrefactor name with
  | some v => .ok (p.fluxDensity inc phi energy (dirOfNumber separation) t / v)
  | none => .ok (p.resp inc phi energy separation t * p.deriv name energy)

/-! ### Counts in a pixel -/

/-- A source as `Pixel` sees it: whether it is a point source, its separation from the pixel in
degrees, the number of free parameters of its functions before the spectrum, and the flux density and
its derivatives with respect to the free parameters of the spectrum (energy, event type, inclination,
azimuth). -/
structure Src where
  point : Bool
  sep : ℝ
  other : ℕ
  flux : ℝ → ℕ → ℝ → ℝ → ℝ
  free : List (ℝ → ℕ → ℝ → ℝ → ℝ)

/-- The separation that is kept, Pixel.cxx:83-88, 105-110. -/
noncomputable def Src.separation (s : Src) : ℝ := if s.point then s.sep else 90

/-- `Pixel::Aeff::value` and `Pixel::AeffDeriv::value`, Pixel.cxx:91-98, 113-120. -/
noncomputable def Src.seen (s : Src) (g : ℝ → ℝ → ℝ) (cosTheta phi : ℝ) : ℝ :=
  open Classical in
  if s.separation < 90 then g (arccos cosTheta * 180 / π) phi else 0

/-- The sum over the responses for one source, Pixel.cxx:30-43. -/
noncomputable def countsOfSource (q : Cube) (solidAngle emin emax : ℝ) (s : Src) : List ℕ → ℝ → Res ℝ
  | [], acc => .ok acc
  | t :: ts, acc => do
    let lower ← q.value (s.seen (s.flux emin t)) emin
    let upper ← q.value (s.seen (s.flux emax t)) emax
    countsOfSource q solidAngle emin emax s ts
      (acc + (lower * emin + upper * emax) / 2 * solidAngle * log (emax / emin))

/-- `modelCounts`, Pixel.cxx:16-45. -/
noncomputable def countsLoop (q : Cube) (types : List ℕ) (solidAngle emin emax : ℝ) : List Src → ℝ → Res ℝ
  | [], acc => .ok acc
  | s :: ss, acc => do
    let acc ← countsOfSource q solidAngle emin emax s types acc
    countsLoop q types solidAngle emin emax ss acc

/-- `modelCounts`, Pixel.cxx:16-45. -/
noncomputable def modelCounts (q : Cube) (types : List ℕ) (solidAngle emin emax : ℝ) (srcs : List Src) : Res ℝ :=
  countsLoop q types solidAngle emin emax srcs 0

/-- The sum over the responses for one parameter, Pixel.cxx:62-76. -/
noncomputable def derivOfParam (q : Cube) (solidAngle emin emax : ℝ) (s : Src) (d : ℝ → ℕ → ℝ → ℝ → ℝ) (i : ℕ) :
    List ℕ → List ℝ → Res (List ℝ)
  | [], out => .ok out
  | t :: ts, out => do
    let map1 ← q.value (s.seen (d emin t)) emin
    let map2 ← q.value (s.seen (d emax t)) emax
    match out[i]? with
    | none => .throws
    | some v => derivOfParam q solidAngle emin emax s d i ts (out.set i (v + (map1 + map2) / 2 * solidAngle * (emax - emin)))

/-- The loop over the free parameters of the spectrum, Pixel.cxx:60-78. -/
noncomputable def derivsOfSource (q : Cube) (types : List ℕ) (solidAngle emin emax : ℝ) (s : Src) :
    List (ℝ → ℕ → ℝ → ℝ → ℝ) → ℕ → List ℝ → Res (ℕ × List ℝ)
  | [], i, out => .ok (i, out)
  | d :: ds, i, out => do
    let out ← derivOfParam q solidAngle emin emax s d i types out
    derivsOfSource q types solidAngle emin emax s ds (i + 1) out

/-- The loop over the sources, Pixel.cxx:55-79. -/
noncomputable def derivsLoop (q : Cube) (types : List ℕ) (solidAngle emin emax : ℝ) : List Src → ℕ → List ℝ → Res (List ℝ)
  | [], _, out => .ok out
  | s :: ss, i, out => do
    let r ← derivsOfSource q types solidAngle emin emax s s.free i out
    derivsLoop q types solidAngle emin emax ss r.1 r.2

/-- The number of free parameters of the model, `getNumFreeParams`. -/
def numFree : List Src → ℕ
  | [] => 0
  | s :: ss => s.other + s.free.length + numFree ss

/-- `Pixel::getFreeDerivs`, Pixel.cxx:46-80; `out` is what the vector holds before. -/
noncomputable def getFreeDerivs (q : Cube) (types : List ℕ) (solidAngle emin emax : ℝ) (srcs : List Src) (out : List ℝ) : Res (List ℝ) :=
  derivsLoop q types solidAngle emin emax srcs 0 (vresize out (numFree srcs) 0)

/-- The inner loop of `computeModelMap`, SourceModel.cxx:662-666. -/
noncomputable def pixelsLoop (counts : ℕ → ℝ → ℝ → Res ℝ) (e1 e2 : ℝ) : List ℕ → List ℝ → Res (List ℝ)
  | [], out => .ok out
  | j :: js, out => do
    let v ← counts j e1 e2
    pixelsLoop counts e1 e2 js (out ++ [v])

/-- `computeModelMap`, SourceModel.cxx:654-668; `counts j` are the counts of pixel `j`.  Without
energies `reserve` is asked for more than a vector can hold. -/
noncomputable def computeModelMap (npix : ℕ) (energies : List ℝ) (counts : ℕ → ℝ → ℝ → Res ℝ) : Res (List ℝ) :=
  if energies.length = 0 then .throws else
  loop (fun k out => do
    let e1 ← vget energies k
    let e2 ← vget energies (k + 1)
    pixelsLoop counts e1 e2 (List.range npix) out) 0 (energies.length - 1) []

end Verif.Pix
