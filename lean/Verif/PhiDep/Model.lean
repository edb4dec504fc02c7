import Verif.Basic
import Verif.PhiDep.Types
import Mathlib.Tactic.NormNum
/-
The switch of each response function that tells whether its effective area depends on the azimuth:
`ExposureCube::Aeff`, `PointSource::Aeff::value`, `Drm::matrix_element`, `ExpCube::set_phi_status` and
`ResponseFunctions::totalResponse`.

Simplifications.  Real numbers for doubles.  The response functions are given and do not throw; each event type
has its own.  The integrals over the livetime cube are left out: only the areas that go into them.
-/
namespace Verif.PhiDep
open Verif

variable {A : Type}

/-- `setPhiDependence` of one response function. -/
def setFlag (f : Flags) (i : Nat) (b : Bool) : Flags := fun j => if j = i then b else f j

/-- The loop that switches all off, ExposureCube.cxx:87-91, gtexpcube2.cxx:418-422. -/
def allOff : List Nat → Flags → Flags
  | [], f => f
  | i :: is, f => allOff is (setFlag f i false)

/-- `ExposureCube::Aeff::Aeff`, ExposureCube.cxx:81-93. -/
def makeArea (R : Irfs A) (phi : Bool) (f : Flags) : Flags := if !phi then allOff R.ids f else f

/-- `set_phi_status`, gtexpcube2.cxx:412-424. -/
def ignorePhi (R : Irfs A) (ignore : Bool) (f : Flags) : Flags := if ignore then allOff R.ids f else f

/-- `ExposureCube::Aeff::value`, ExposureCube.cxx:106-120: the loop looks for the event type. -/
def cubeArea (R : Irfs A) (f : Flags) (id : Nat) (a : A) : List Nat → ℝ
  | [] => 0
  | i :: is => if i = id then R.area i (f i) a else cubeArea R f id a is

open Classical in
/-- `AeffBase::operator()`, ExposureCube.cxx:95-104: the value from the cache, or computed and stored. -/
noncomputable def cached (R : Irfs A) (f : Flags) (id : Nat) (cache : A → Option ℝ) (a : A) :
    ℝ × (A → Option ℝ) :=
  match cache a with
  | some v => (v, cache)
  | none => (cubeArea R f id a R.ids, fun b => if b = a then some (cubeArea R f id a R.ids) else cache b)

open Classical in
/-- `PointSource::Aeff::value`, PointSource.cxx:510-557: the loop; a small area ends it with `0`. -/
noncomputable def pointLoop (R : Irfs A) (phi : Bool) (a : A) : List Nat → Flags → ℝ → ℝ × Flags
  | [], f, acc => (if acc < 0 then 0 else acc, f)
  | i :: is, f, acc =>
    let saved := f i
    let g := setFlag f i phi
    let v := R.area i (g i) a
    let h := setFlag g i saved
    if v < 1 / 10 then (0, h) else pointLoop R phi a is h (acc + R.psf i a * v)

/-- The exposure of a point source in one direction. -/
noncomputable def pointArea (R : Irfs A) (phi : Bool) (a : A) (f : Flags) : ℝ × Flags :=
  pointLoop R phi a R.ids f 0

/-- The first loop of `matrix_element`, Drm.cxx:227-231: the switches are remembered and switched off. -/
def drmSave : List Nat → Flags → List Bool → List Bool × Flags
  | [], f, acc => (acc, f)
  | i :: is, f, acc => drmSave is (setFlag f i false) (acc ++ [f i])

/-- The last loop, Drm.cxx:255-259. -/
def drmRestore (saved : List Bool) : List Nat → Nat → Flags → Res Flags
  | [], _, f => .ok f
  | i :: is, k, f => do
    let b ← vget saved k
    drmRestore saved is (k + 1) (setFlag f i b)

/-- The exposure at one inclination, Drm.cxx:239-246. -/
def drmExposure (R : Irfs A) (f : Flags) (livetime : ℝ) (a : A) : List Nat → ℝ
  | [] => 0
  | i :: is => R.area i (f i) a * livetime + drmExposure R f livetime a is

/-- The loops of `matrix_element`, Drm.cxx:224-261: the exposures at the inclinations and the switches. -/
def drmElement (R : Irfs A) (dirs : List (ℝ × A)) (f : Flags) : Res (List ℝ × Flags) := do
  let (saved, g) := drmSave R.ids f []
  let ex := dirs.map fun d => drmExposure R g d.1 d.2 R.ids
  let h ← drmRestore saved R.ids 0 g
  .ok (ex, h)

/-- One step of a program. -/
noncomputable def step (R : Irfs A) (f : Flags) : Op A → Res Flags
  | .cube phi => .ok (makeArea R phi f)
  | .point phi a => .ok (pointArea R phi a f).2
  | .drm dirs => do
    let (_, g) ← drmElement R dirs f
    .ok g
  | .ignore => .ok (ignorePhi R true f)

/-- A program. -/
noncomputable def run (R : Irfs A) : List (Op A) → Flags → Res Flags
  | [], f => .ok f
  | o :: os, f => do
    let g ← step R f o
    run R os g

/-- The response to an event, ResponseFunctions.cxx:34-65: the type must be known. -/
noncomputable def eventResponse (R : Irfs A) (f : Flags) (id : Nat) (a : A) : Res ℝ :=
  if id ∈ R.ids then .ok (R.psf id a * R.area id (f id) a) else .throws

end Verif.PhiDep
