import Verif.Basic
import Verif.TrapQuad.Model
import Mathlib.Analysis.SpecialFunctions.Trigonometric.Basic
/-
Radial profiles, src/RadialProfile.cxx, and the position of radial sources,
src/SpatialFunction.cxx, src/RadialDisk.cxx and the part of src/DiffuseSource.cxx that moves
them.

A position is the pair of right ascension and declination; `offset` of the program is the
angle between two positions.
-/
namespace Verif.Profile
open Real

/-- The loop of `readTemplateFile`, RadialProfile.cxx:138-152, on the numbers of the lines;
`pts` are the points read before. -/
noncomputable def readLoop : List (ℝ × ℝ) → List (ℝ × ℝ) → Res (List (ℝ × ℝ))
  | [], pts => .ok pts
  | p :: lines, pts =>
    if ∃ q, pts.getLast? = some q ∧ p.1 < q.1 then .throws
    else readLoop lines (pts ++ [p])

/-- `readTemplateFile`, RadialProfile.cxx:130-153. -/
noncomputable def readTemplate (lines : List (ℝ × ℝ)) : Res (List (ℝ × ℝ)) := readLoop lines []

/-- `.at(i)`. -/
def ptAt (pts : List (ℝ × ℝ)) (i : Nat) : Res (ℝ × ℝ) :=
  match pts[i]? with
  | some p => .ok p
  | none => .throws

/-- `size() - 2` as `size_t`. -/
def sizeMinus2 (pts : List (ℝ × ℝ)) : Nat :=
  if pts.length < 2 then 2 ^ 64 + pts.length - 2 else pts.length - 2

/-- The index of `valueAtOffset`, RadialProfile.cxx:65-71; `back()` of an empty vector is
undefined. -/
noncomputable def index (pts : List (ℝ × ℝ)) (offset : ℝ) : Res Nat :=
  match pts[0]?, pts[pts.length - 1]? with
  | some f, some b =>
    .ok (if b.1 ≤ offset then sizeMinus2 pts
      else if f.1 < offset then (open Classical in pts.findIdx (fun p => decide (offset < p.1))) - 1
      else 0)
  | _, _ => .ub

/-- `valueAtOffset`, RadialProfile.cxx:64-74, on the points `(theta, profile)`.  A division by
zero, in the program not a number, is `ub`. -/
noncomputable def valueAtOffset (pts : List (ℝ × ℝ)) (offset : ℝ) : Res ℝ := do
  let i ← index pts offset
  let p ← ptAt pts i
  let q ← ptAt pts (i + 1)
  if q.1 - p.1 = 0 then .ub
  else .ok ((offset - p.1) / (q.1 - p.1) * (q.2 - p.2) + p.2)

/-- `angularIntegral`, RadialProfile.cxx:105-115. -/
noncomputable def angularIntegral (pts : List (ℝ × ℝ)) : Res ℝ :=
  let xvals := pts.map fun p => p.1 * π / 180
  let yvals := pts.map fun p => sin (p.1 * π / 180) * p.2 * 2 * π
  (TrapQuad.Obj.ofVectors xvals yvals false).integral

/-- The state of a profile: parameters, centre (a pointer) and points. -/
structure State where
  norm : ℝ
  ra : ℝ
  dec : ℝ
  center : Option (ℝ × ℝ)
  pts : List (ℝ × ℝ)

/-- `value`, RadialProfile.cxx:76-85: the answer and the new state; `angle` is the separation in
degrees. -/
noncomputable def State.value (angle : ℝ × ℝ → ℝ × ℝ → ℝ) (s : State) (dir : ℝ × ℝ) : Res (State × ℝ) :=
  let c := match s.center with
    | some c => c
    | none => (s.ra, s.dec)
  do
    let v ← valueAtOffset s.pts (angle dir c)
    .ok ({ s with center := some c }, v)

/-- `derivByParamImp`, RadialProfile.cxx:88-97. -/
noncomputable def State.deriv (angle : ℝ × ℝ → ℝ × ℝ → ℝ) (s : State) (dir : ℝ × ℝ) (par : String) : Res ℝ :=
  if par = "Normalization" then do
    let v ← s.value angle dir
    if s.norm = 0 then .ub else .ok (v.2 / s.norm)
  else .throws

/-- `setCenter`, RadialProfile.cxx:99-101. -/
def State.setCenter (s : State) (p : ℝ × ℝ) : State := { s with center := some p }

/-- `getCenter`, RadialProfile.cxx:103-105: a null pointer is dereferenced if there is none. -/
def State.getCenter (s : State) : Res (ℝ × ℝ) :=
  match s.center with
  | some c => .ok c
  | none => .ub

/-- Setting the parameters `RA` and `DEC` (of the base class, which knows nothing about the
centre). -/
def State.setRaDec (s : State) (p : ℝ × ℝ) : State := { s with ra := p.1, dec := p.2 }

/-- The assignment operator, RadialProfile.cxx:51-62: `lhs = rhs`. -/
def State.assign (lhs rhs : State) : State :=
  { rhs with center := match rhs.center with
      | some c => some c
      | none => lhs.center }

/-- A disk or a Gaussian: the three parameters, the direction and the size used. -/
structure Extended where
  ra : ℝ
  dec : ℝ
  width : ℝ
  dir : ℝ × ℝ
  size : ℝ

/-- The parameters. -/
inductive Par where
  | ra
  | dec
  | width

/-- Setting a parameter in the base class. -/
def Extended.put (s : Extended) (p : Par) (v : ℝ) : Extended :=
  match p with
  | .ra => { s with ra := v }
  | .dec => { s with dec := v }
  | .width => { s with width := v }

/-- `update`, SpatialFunction.cxx:98-102 and RadialDisk.cxx:128-132. -/
def Extended.update (s : Extended) : Extended := { s with dir := (s.ra, s.dec), size := s.width }

/-- `setParam`, SpatialFunction.h:132-135. -/
def Extended.setParam (s : Extended) (p : Par) (v : ℝ) : Extended := (s.put p v).update

/-- `setCenter`, SpatialFunction.cxx:60-62, as called by `DiffuseSource::moveSource`,
DiffuseSource.cxx:108-113. -/
def Extended.move (s : Extended) (p : ℝ × ℝ) : Extended := { s with dir := p }

/-- The constructor, SpatialFunction.cxx:44-49, RadialDisk.cxx:72-77. -/
def Extended.new (ra dec width : ℝ) : Extended := ⟨ra, dec, width, (ra, dec), width⟩

end Verif.Profile
