import Verif.Basic
import Verif.Energy.Model
import Mathlib.Analysis.SpecialFunctions.Trigonometric.Basic
/-
Binned exposure maps: src/BinnedExposureBase.cxx and src/BinnedExposure.cxx.

Numbers are reals, single precision is not modelled.  The projection is a function from
directions to pixel coordinates, which start at one in the centre of the first pixel; nothing
if the projection throws.  The livetime integrals (`expCube().value`) are inputs.
-/
namespace Verif.BinExp
open Real

/-- `static_cast<int>` of a floating point number: towards zero.  Overflow of `int` is not
modelled. -/
noncomputable def trunc (x : ℝ) : ℤ := if 0 ≤ x then ⌊x⌋ else ⌈x⌉

/-- Conversion to `unsigned int`. -/
def toUnsigned (x : ℤ) : Nat := (x % (2 ^ 32 : ℤ)).toNat

/-- `fracDiff(target, result) < tol`, BinnedExposureBase.h:44-46: a target of zero gives no
finite number. -/
noncomputable def close (tol target result : ℝ) : Bool :=
  open Classical in decide (target ≠ 0 ∧ |(target - result) / target| < tol)

/-- `findNearest`, BinnedExposureBase.cxx:39-58. -/
noncomputable def findNearest (tol : ℝ) (xx : List ℝ) (x : ℝ) : Res Nat :=
  open Classical in
  if xx.findIdx (fun b => decide (b = x)) < xx.length then .ok (xx.findIdx (fun b => decide (b = x)))
  else if xx.findIdx (fun b => close tol x b) < xx.length then .ok (xx.findIdx (fun b => close tol x b))
  else .throws

/-- The default tolerance, BinnedExposureBase.h:49. -/
noncomputable def defaultTol : ℝ := 1e-5

/-- What the two functions that look up values use: the energies, the size, the values
(energy, row, column), the flag `m_enforce_boundaries` and the projection. -/
structure BMap (D : Type) where
  energies : List ℝ
  n0 : Nat
  n1 : Nat
  data : List ℝ
  enforce : Bool
  proj : Option (D → Option (ℝ × ℝ))

/-- Column or row, BinnedExposure.cxx:118-119, 152-153. -/
noncomputable def index (p : ℝ) : ℤ := trunc (p - 1)

/-- `within_bounds` for the position, BinnedExposure.cxx:123-124, 156-157. -/
def within {D : Type} (m : BMap D) (i j : ℤ) : Bool :=
  decide (0 ≤ i) && decide (i < m.n0) && decide (0 ≤ j) && decide (j < m.n1)

/-- `operator()`, BinnedExposure.cxx:104-138. -/
noncomputable def lookup {D : Type} (m : BMap D) (energy : ℝ) (dir : D) : Res ℝ :=
  match m.proj with
  | none => .throws
  | some pix => do
    let k ← findNearest defaultTol m.energies energy
    match pix dir with
    | none => .throws
    | some p =>
      let i := index p.1
      let j := index p.2
      let indx := toUnsigned (((k : ℤ) * m.n1 + j) * m.n0 + i)
      if m.enforce && !(within m i j && decide (k < m.energies.length)) then .throws
      else .ok ((m.data[indx]?).getD 0)

/-- The loop over energies of `get_exposures_for_dir`, BinnedExposure.cxx:164-181. -/
noncomputable def lookupLoop {D : Type} (m : BMap D) (i j : ℤ) : List ℝ → Res (List ℝ)
  | [] => .ok []
  | e :: es => do
    let k ← findNearest defaultTol m.energies e
    let v ← (if within m i j && decide (k < m.energies.length) then
        vget m.data (toUnsigned ((toUnsigned ((m.n0 : ℤ) * m.n1) : ℤ) * k + toUnsigned (j * m.n0 + i)))
      else if m.enforce && !decide (k < m.energies.length) then .throws
      else .ok 0)
    let vs ← lookupLoop m i j es
    .ok (v :: vs)

/-- `get_exposures_for_dir`, BinnedExposure.cxx:141-182. -/
noncomputable def lookups {D : Type} (m : BMap D) (dir : D) (energies : List ℝ) : Res (List ℝ) :=
  match m.proj with
  | none => .throws
  | some pix =>
    match pix dir with
    | none => .throws
    | some p =>
      if m.enforce && !within m (index p.1) (index p.2) then .throws
      else lookupLoop m (index p.1) (index p.2) energies

/-! ### Computing a map -/

/-- `vect.at(i) += x`. -/
noncomputable def vadd (l : List ℝ) (i : Nat) (x : ℝ) : Res (List ℝ) :=
  match l[i]? with
  | some v => .ok (l.set i (v + x))
  | none => .throws

/-- The values of a pixel, BinnedExposure.cxx:290-302; `f k r` is the livetime integral for an
energy and a response. -/
noncomputable def addPixel (n0 n1 ne nresp : Nat) (j i : Nat) (f : Nat → Nat → ℝ) (m : List ℝ) : Res (List ℝ) :=
  loop (fun k m => loop (fun r m => vadd m (toUnsigned (((k : ℤ) * n1 + j) * n0 + i)) (f k r)) 0 nresp m) 0 ne m

/-- One pixel: a pixel without a direction is left out, BinnedExposure.cxx:278-303. -/
noncomputable def onePixel {D : Type} (n0 n1 ne nresp : Nat) (dir : Nat → Nat → Option D) (f : D → Nat → Nat → ℝ)
    (j i : Nat) (m : List ℝ) : Res (List ℝ) :=
  match dir (i + 1) (j + 1) with
  | none => .ok m
  | some d => addPixel n0 n1 ne nresp j i (f d) m

/-- `computeMap`, BinnedExposure.cxx:248-317; `dir` are the directions of the pixels, counted
from one. -/
noncomputable def computeMap {D : Type} (n0 n1 ne nresp : Nat) (dir : Nat → Nat → Option D) (f : D → Nat → Nat → ℝ) :
    Res (List ℝ) :=
  loop (fun j m => loop (fun i m => onePixel n0 n1 ne nresp dir f j i m) 0 n0 m) 0 n1
    (List.replicate (n0 * n1 * ne) 0)

/-- The means of neighbouring energies, BinnedExposure.cxx:50-54.  (`size() - 1` of an empty
vector is not modelled: a counts map has energies.) -/
noncomputable def means : List ℝ → List ℝ
  | a :: b :: l => √(a * b) :: means (b :: l)
  | _ => []

/-- The parameters of a projection. -/
structure Geom where
  name : String
  crpix : ℝ × ℝ
  crval : ℝ × ℝ
  cdelt : ℝ × ℝ
  rot : ℝ
  gal : Bool

/-- A map that has been computed. -/
structure Made where
  geom : Geom
  /-- `m_naxes` -/
  naxes : Nat × Nat × Nat
  energies : List ℝ
  data : List ℝ

/-- The constructor for a counts map, BinnedExposure.cxx:40-58, with `setMapGeometry`,
lines 185-206: the third size is that of the energies before they are expanded. -/
noncomputable def ofCountsMap {D : Type} (g : Geom) (n0 n1 : Nat) (energies : List ℝ) (edispBins : Nat)
    (useEbounds : Bool) (nresp : Nat) (dir : Geom → Nat → Nat → Option D) (f : D → ℝ → Nat → ℝ) : Res Made := do
  let es ← Energy.expandEnergies energies edispBins
  let es' := if useEbounds then es else means es
  let n2 := if useEbounds then energies.length else energies.length - 1
  let data ← computeMap n0 n1 es'.length nresp (dir g) (fun d k r => f d (es'.getD k 0) r)
  .ok ⟨g, (n0, n1, n2), es', data⟩

/-- What a file holds. -/
structure File where
  geom : Geom
  naxes : Nat × Nat × Nat
  energies : List ℝ
  data : List ℝ

/-- `writeOutput`, BinnedExposure.cxx:319-390: the reference pixel is the middle of the map, the
rotation is not written (no keyword is a rotation of zero).  The image has as many values as its
size says; how the library treats further values is not known here, they are not in the
file. -/
noncomputable def write (m : Made) : File :=
  ⟨{ m.geom with crpix := (((m.naxes.1 : ℝ) + 1) / 2, ((m.naxes.2.1 : ℝ) + 1) / 2), rot := 0 }, m.naxes,
    m.energies, m.data.take (m.naxes.1 * m.naxes.2.1 * m.naxes.2.2)⟩

/-- The constructor from a file, BinnedExposure.cxx:72-99 and BinnedExposureBase.cxx:85-100;
`pix` is the projection with the given parameters. -/
def ofFile {D : Type} (pix : Geom → D → Option (ℝ × ℝ)) (f : File) : BMap D :=
  ⟨f.energies, f.naxes.1, f.naxes.2.1, f.data, false, some (pix f.geom)⟩

/-- The map that was computed, used at once. -/
def ofMade {D : Type} (pix : Geom → D → Option (ℝ × ℝ)) (m : Made) : BMap D :=
  ⟨m.energies, m.naxes.1, m.naxes.2.1, m.data, false, some (pix m.geom)⟩

/-! ### The range of inclinations -/

/-- `setCosThetaBounds`, BinnedExposureBase.cxx:108-117, from the values -1 and 1 of the
constructors: the smallest and the largest cosine. -/
noncomputable def cosBounds (thmin thmax : ℝ) : ℝ × ℝ :=
  (if thmax < 180 then cos (thmax * π / 180) else -1, if thmin > 0 then cos (thmin * π / 180) else 1)

/-- `Aeff::value`, BinnedExposureBase.cxx:119-124; `aeff` is the effective area without limits. -/
noncomputable def aeffValue (b : ℝ × ℝ) (aeff : ℝ → ℝ) (cosTheta : ℝ) : ℝ :=
  if cosTheta < b.1 ∨ cosTheta > b.2 then 0 else aeff cosTheta

end Verif.BinExp
