import Verif.HpxMap.Types
import Verif.Wcs.Model
import Mathlib.Analysis.SpecialFunctions.Log.Basic
import Mathlib.Analysis.SpecialFunctions.Trigonometric.Basic
/-
Model of src/HealpixProjMap.cxx: maps of the whole sky in HEALPix pixels.  Numbers of single and double precision are real
numbers, numbers of pixels are not bounded, the projection (`astro::HealpixProj`) and the library of pixels are arbitrary
functions.
-/
namespace Verif.HpxMap
variable {δ : Type}

/-- `nPixels`, HealpixProjMap.cxx:591-595. -/
def Map.nPixels (m : Map) : Nat := 12 * m.nside * m.nside

/-- The solid angle of a pixel, `latchCacheData`, HealpixProjMap.cxx:598-605. -/
noncomputable def Map.solidAngle (m : Map) : ℝ := 4 * Real.pi / m.nPixels

/-- The integral of an image, HealpixProjMap.cxx:541-547. -/
noncomputable def integral (m : Map) (k : Nat) : Res ℝ := do
  let p ← vget m.planes k
  let s ← loop (fun i s => do
    let v ← vget p.vals i
    .ok (s + v)) 0 m.nPixels 0
  .ok (s * m.solidAngle)

/-- The sum over energies, HealpixProjMap.cxx:554-559. -/
noncomputable def trapezoids (es vs : List ℝ) : Res ℝ :=
  loop (fun k s => do
    let v1 ← vget vs (k + 1)
    let e1 ← vget es (k + 1)
    let v0 ← vget vs k
    let e0 ← vget es k
    .ok (s + (v1 * e1 + v0 * e0) / 2 * Real.log (e1 / e0))) 0 (es.length - 1) 0

/-- `computeMapIntegrals`, HealpixProjMap.cxx:537-560.  Without energies the loop runs to the largest number. -/
noncomputable def Map.computeIntegrals (m : Map) : Res Map := do
  let vs ← (List.range m.energies.length).mapM (integral m)
  match m.energies with
  | [] => .ub
  | [_] => do
    let v ← vget vs 0
    .ok { m with integrals := vs, total := v }
  | _ => do
    let t ← trapezoids m.energies vs
    .ok { m with integrals := vs, total := t }

/-- `std::string::find`: the first place, or the largest number (here without bound: the length of memory) if there is
none. -/
def find (s pat : List Char) : Nat :=
  match (List.range (s.length + 1)).find? (fun i => pat.isPrefixOf (s.drop i)) with
  | some i => i
  | none => 2 ^ 64 - 1

/-- Whether a column is read, HealpixProjMap.cxx:161; the names are in small letters. -/
def dataColumn (name : List Char) : Bool := decide (0 ≤ find name "energy".toList) || decide (0 ≤ find name "Bin".toList)

/-- The image of a column, HealpixProjMap.cxx:173-183: `junk` is what memory contains. -/
def readColumn (junk : Nat → ℝ) (f : File) (vals : List ℝ) : Res Plane := do
  let v ← loop (fun i im => do
    let x ← vget vals i
    vset im i x) 0 vals.length ((List.range (12 * f.nside * f.nside)).map junk)
  .ok ⟨f.nside, f.nest, v⟩

/-- The energies, HealpixProjMap.cxx:135-152: those of the extension if the table has several columns. -/
def fileEnergies (f : File) : List ℝ :=
  let n := if f.naxis = 2 then f.cols.length else 1
  if 1 < n then f.energies else [100]

/-- The constructor from a file, HealpixProjMap.cxx:110-187. -/
noncomputable def fromFile (junk : Nat → ℝ) (f : File) (interp enforce : Bool) : Res Map := do
  let planes ← ((f.cols.filter fun c => dataColumn c.1).map Prod.snd).mapM (readColumn junk f)
  Map.computeIntegrals ⟨f.nside, f.nest, fileEnergies f, planes, [], 0, interp, enforce⟩

/-- The value of a pixel from a source, HealpixProjMap.cxx:222-227, 274-279. -/
noncomputable def clip (v : ℝ) : ℝ := open Classical in if v < 0 ∧ -1e-10 < v then 0 else v

/-- `check_negative_pixels`, HealpixProjMap.cxx:607-613. -/
noncomputable def checkNegative (vals : List ℝ) : Res PUnit :=
  open Classical in if ∃ v ∈ vals, v < 0 then .throws else .ok ⟨⟩

/-- The constructors from a source, HealpixProjMap.cxx:189-238, 241-289: `dist` is the spatial distribution at the given
energy.  Every pixel has a direction. -/
noncomputable def fromSource (lib : Library δ) (dist : δ → ℝ) (nside : Nat) (nest : Bool) (energy : ℝ)
    (interp enforce : Bool) : Res Map := do
  let vals := (List.range (12 * nside * nside)).map (fun i => clip (dist (lib.centre nside nest i)))
  checkNegative vals
  Map.computeIntegrals ⟨nside, nest, [energy], [⟨nside, nest, vals⟩], [], 0, interp, enforce⟩

/-- `check_energy_index`, ProjMap.cxx:174-179. -/
def Map.checkIndex (m : Map) (k : Nat) : Res PUnit := if m.energies.length < k then .throws else .ok ⟨⟩

/-- `check_energy`, ProjMap.cxx:181-186. -/
noncomputable def Map.checkEnergy (m : Map) (e : ℝ) : Res PUnit :=
  match m.energies.head?, m.energies.getLast? with
  | some f, some b => open Classical in if m.enforce ∧ (e < f ∨ b < e) then .throws else .ok ⟨⟩
  | _, _ => if m.enforce then .ub else .ok ⟨⟩

/-- `interpolated_value` of the library. -/
noncomputable def interpolated (lib : Library δ) (p : Plane) (d : δ) : Res ℝ := do
  let ts ← (lib.weights p.nside p.nest d).mapM (fun w => do
    let v ← vget p.vals w.1
    .ok (w.2 * v))
  .ok ts.sum

/-- `operator()(dir, k)`, HealpixProjMap.cxx:364-381. -/
noncomputable def Map.plane (m : Map) (lib : Library δ) (d : δ) (k : Nat) : Res ℝ := do
  m.checkIndex k
  let p ← vget m.planes k
  if m.interp then interpolated lib p d else vget p.vals (lib.pixel p.nside p.nest d)

/-- The energy below, HealpixProjMap.cxx:391-406; the count of extrapolations is left out. -/
noncomputable def Map.energyIndex (m : Map) (e : ℝ) : Nat :=
  if 1 < m.energies.length then
    -- one less than zero becomes zero, lines 402-405
    let k := (open Classical in m.energies.findIdx (fun b => decide (e < b))) - 1
    if m.energies.length - 2 < k then m.energies.length - 2 else k
  else 0

/-- Tiny negative values, HealpixProjMap.cxx:421-422. -/
noncomputable def flip (y : ℝ) : ℝ := open Classical in if y < 0 ∧ -1e-10 < y then y * -0.0001 else y

/-- The energy that is used, HealpixProjMap.cxx:386-388. -/
noncomputable def energyUsed (front energy : ℝ) : ℝ := open Classical in if energy < 0 then front else energy

/-- The value between two energies, HealpixProjMap.cxx:410-426, with the value at the lower one. -/
noncomputable def Map.between (m : Map) (lib : Library δ) (d : δ) (e : ℝ) (k : Nat) (y1 : ℝ) : Res ℝ :=
  vget m.energies k >>= fun ek =>
  open Classical in
  if e = ek then .ok y1 else do
  let y2 ← m.plane lib d (k + 1)
  let ek1 ← vget m.energies (k + 1)
  Wcs.powerLaw e ek ek1 (flip y1) (flip y2)

/-- `operator()(dir, energy)`, HealpixProjMap.cxx:384-427. -/
noncomputable def Map.value (m : Map) (lib : Library δ) (d : δ) (energy : ℝ) : Res ℝ := do
  let front ← vget m.energies 0
  let e := energyUsed front energy
  m.checkEnergy e
  let y1 ← m.plane lib d (m.energyIndex e)
  m.between lib d e (m.energyIndex e) y1

/-- `pixelValue`, HealpixProjMap.cxx:514-518. -/
def Map.pixelValue (m : Map) (i k : Nat) : Res ℝ := do
  m.checkIndex k
  let p ← vget m.planes k
  vget p.vals i

/-- `Import_degrade` of the library into an image of a smaller side. -/
noncomputable def degrade (lib : Library δ) (p : Plane) (nside : Nat) (nest : Bool) : Res Plane :=
  if p.nside ≤ nside ∨ p.nside % nside ≠ 0 then .throws
  else do
    let vals ← (List.range (12 * nside * nside)).mapM (fun i => do
      let vs ← (lib.inner p.nside nside nest i).mapM (vget p.vals)
      .ok (vs.sum / vs.length))
    .ok ⟨nside, nest, vals⟩

/-- One image of `rebin`, HealpixProjMap.cxx:571-577: the constructor of the image takes the order, that is the logarithm
of the side. -/
noncomputable def rebinPlane (lib : Library δ) (m : Map) (newNside : Nat) (p : Plane) : Res Plane :=
  if lib.maxOrder < newNside then .throws else degrade lib p (2 ^ newNside) m.nest

/-- The side asked for, HealpixProjMap.cxx:565-569; `none` if the map is left alone. -/
def newSide (m : Map) (factor : Nat) : Option Nat :=
  if factor ≤ 1 then none
  else if m.nside / factor = 0 then (if m.nside = 1 then none else some 1)
  else some (m.nside / factor)

/-- `rebin`, HealpixProjMap.cxx:562-579. -/
noncomputable def rebin (lib : Library δ) (m : Map) (factor : Nat) : Res Map :=
  match newSide m factor with
  | none => .ok m
  | some n => do
    let ps ← (List.range m.energies.length).mapM (fun k => do
      let p ← vget m.planes k
      rebinPlane lib m n p)
    .ok { m with planes := ps ++ m.planes.drop m.energies.length }

end Verif.HpxMap
