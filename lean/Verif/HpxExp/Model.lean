import Verif.Basic
import Verif.Energy.Model
import Verif.BinExp.Model
import Verif.HpxExp.Types
/-
Model of HEALPix exposure maps: src/BinnedHealpixExposure.cxx, with the functions of
src/BinnedExposureBase.cxx of Verif.BinExp.  The HEALPix projection (library astro) is arbitrary
functions between pixel numbers and directions.  Single precision is not modelled.  The livetime
integrals (`expCube().value`) are inputs.
-/
namespace Verif.HpxExp
open Verif.BinExp (findNearest defaultTol means)

/-- What the functions that look up values use: energies, planes, `m_enforce_boundaries`, projection
(`none`: a null pointer).  A value `none` has not been initialised. -/
structure HMap (D : Type) where
  energies : List ℝ
  planes : List (List (Option ℝ))
  enforce : Bool
  sky : Option (Sky D)

/-- `m_exposureMap[k][i]`: neither index is checked. -/
def read1 (planes : List (List (Option ℝ))) (k : Nat) (i : Int) : Res ℝ := do
  let p ← vget planes k
  if i < 0 then .ub
  else do
    let v ← vget p i.toNat
    match v with
    | some x => .ok x
    | none => .ub

/-- `within_bounds`, BinnedHealpixExposure.cxx:132-133, 161. -/
def within {D : Type} (s : Sky D) (i : Int) : Bool := decide (0 ≤ i) && decide (i < s.npix)

/-- `operator()`, BinnedHealpixExposure.cxx:124-145. -/
noncomputable def lookup {D : Type} (m : HMap D) (energy : ℝ) (dir : D) : Res ℝ := do
  let k ← findNearest defaultTol m.energies energy
  match m.sky with
  | none => .ub
  | some s =>
    if m.enforce && !(within s (s.pix dir) && decide (k < m.energies.length)) then .throws
    else read1 m.planes k (s.pix dir)

/-- The loop over energies of `get_exposures_for_dir`, BinnedHealpixExposure.cxx:167-183. -/
noncomputable def lookupLoop {D : Type} (m : HMap D) (s : Sky D) (i : Int) : List ℝ → Res (List ℝ)
  | [] => .ok []
  | e :: es => do
    let k ← findNearest defaultTol m.energies e
    let v ← (if m.enforce && !decide (k < m.energies.length) then .throws
      else if within s i && decide (k < m.energies.length) then read1 m.planes k i
      else .ok 0)
    let vs ← lookupLoop m s i es
    .ok (v :: vs)

/-- `get_exposures_for_dir`, BinnedHealpixExposure.cxx:148-184. -/
noncomputable def lookups {D : Type} (m : HMap D) (dir : D) (energies : List ℝ) : Res (List ℝ) :=
  match m.sky with
  | none => .throws
  | some s =>
    if m.enforce && !within s (s.pix dir) then .throws
    else lookupLoop m s (s.pix dir) energies

/-! ### Computing a map -/

/-- A map that has been computed. -/
structure Made where
  geom : Geom
  energies : List ℝ
  planes : List (List ℝ)

/-- The value of a pixel, BinnedHealpixExposure.cxx:239-248: a sum over the response functions. -/
noncomputable def pixelSum {D : Type} (f : D → ℝ → Nat → ℝ) (resps : List Nat) (d : D) (e : ℝ) : ℝ :=
  resps.foldl (fun a r => a + f d e r) 0

/-- `computeHealpixMap`, BinnedHealpixExposure.cxx:215-261; `resps` are the numbers of the response
functions.  The loops over pixels and energies write every element once.  The effective areas are
kept by energy and number; if two have the same number the same object is deleted twice. -/
noncomputable def compute {D : Type} (s : Sky D) (f : D → ℝ → Nat → ℝ) (resps : List Nat) (es : List ℝ) :
    Res (List (List ℝ)) :=
  if es ≠ [] ∧ ¬ resps.Nodup then .ub
  else .ok (es.map fun e => (List.range s.npix).map fun i => pixelSum f resps (s.centre i) e)

/-- The energies if those of the counts map's bounds are not used, BinnedHealpixExposure.cxx:50-55:
without energies the loop goes beyond the end. -/
noncomputable def centres : List ℝ → Res (List ℝ)
  | [] => .ub
  | es => .ok (means es)

/-- The energies of the map, BinnedHealpixExposure.cxx:187-189, 50-55. -/
noncomputable def energiesFor (es : List ℝ) (edispBins : Nat) (useEbounds : Bool) : Res (List ℝ) := do
  let l ← Energy.expandEnergies es edispBins
  if useEbounds then .ok l else centres l

/-- The constructor for a counts map, BinnedHealpixExposure.cxx:40-60, with `setMapGeometry`,
lines 187-194. -/
noncomputable def ofCountsMap {D : Type} (sky : Geom → Sky D) (f : D → ℝ → Nat → ℝ) (resps : List Nat)
    (g : Geom) (es : List ℝ) (edispBins : Nat) (useEbounds : Bool) : Res Made := do
  let l ← energiesFor es edispBins useEbounds
  let planes ← compute (sky g) f resps l
  .ok ⟨g, l, planes⟩

/-- `setMapGeometry` for parameters, BinnedHealpixExposure.cxx:197-206. -/
def geomOf (p : Pars) : Geom := ⟨2 ^ p.order, p.scheme == "RING", p.coordsys == "GAL"⟩

/-- The constructor for energies, BinnedHealpixExposure.cxx:63-76, with `setMapGeometry`,
lines 208-212: without parameters the projection used is a pointer that has not been set. -/
noncomputable def ofEnergies {D : Type} (sky : Geom → Sky D) (f : D → ℝ → Nat → ℝ) (resps : List Nat)
    (pars : Option Pars) (es : List ℝ) : Res Made :=
  match pars with
  | none => .ub
  | some p => do
    let planes ← compute (sky (geomOf p)) f resps es
    .ok ⟨geomOf p, es, planes⟩

/-- The map that was computed, used at once. -/
def ofMade {D : Type} (sky : Geom → Sky D) (m : Made) : HMap D :=
  ⟨m.energies, m.planes.map (·.map some), false, some (sky m.geom)⟩

/-! ### Files -/

/-- The name of a column, BinnedHealpixExposure.cxx:273-274. -/
def columnName (k : Nat) : List Char := "ENERGY".toList ++ Nat.toDigits 10 (k + 1)

/-- `writeOutput`, BinnedHealpixExposure.cxx:263-312: writing a row beyond the end of a table adds
it (library tip); the keywords describe the projection (library astro). -/
def write {D : Type} (sky : Geom → Sky D) (m : Made) : File where
  geom := m.geom
  nrow := (sky m.geom).npix
  columns := m.planes.zipIdx.map fun p => (columnName p.2, p.1)
  energies := m.energies

/-- The columns with exposures, BinnedHealpixExposure.cxx:87-99; tip has the names in lower case. -/
def isData (name : List Char) : Bool := "energy".toList.isPrefixOf (name.map Char.toLower)

/-- The constructor for a file, BinnedHealpixExposure.cxx:79-119 and BinnedExposureBase.cxx:85-100:
`SetNside` does not initialise the values; rows are written without a check of their number. -/
def ofFile {D : Type} (sky : Geom → Sky D) (file : File) : Res (HMap D) :=
  let cols := file.columns.filter fun c => isData c.1
  if cols ≠ [] ∧ (sky file.geom).npix < file.nrow then .ub
  else .ok ⟨file.energies,
    cols.map fun c => c.2.map some ++ List.replicate ((sky file.geom).npix - file.nrow) none,
    false, some (sky file.geom)⟩

end Verif.HpxExp
