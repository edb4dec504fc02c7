import Verif.HpxConv.Types
import Verif.HpxMap.Model
import Mathlib.Analysis.SpecialFunctions.Sqrt
import Mathlib.Data.Nat.Log
/-
Model of src/ConvolveHealpix.cxx and of the convolution in src/HealpixProjMap.cxx.  Numbers of single and double precision
are real numbers; the harmonic transforms and the geometry of the pixels are the library's, hence arbitrary functions.
-/
namespace Verif.HpxConv
open HpxMap
variable {δ : Type}

/-- `average` of the library. -/
noncomputable def average (l : List ℝ) : ℝ := l.sum / l.length

/-! ### The point spread function at the pole -/

/-- How much finer the grid within a pixel is, ConvolveHealpix.cxx:48: rings are counted from zero here. -/
def dOrder (order ring : Nat) : Nat := max (min (13 - order) (6 - 2 * ring)) 1

/-- The value of the pixels of a ring, ConvolveHealpix.cxx:46-62. -/
noncomputable def ringValue (t : Tools) (psf : Psf) (order ring start : Nat) : Res ℝ :=
  let d := dOrder order ring
  if t.maxOrder < order + d then .throws
  else
    let n := 2 ^ d * 2 ^ d
    let sp := t.swap (2 ^ order) start
    .ok (((List.range n).map (fun i => max (psf.value (t.theta (order + d) (sp * n + i))) 0)).sum / n)

/-- The pixels of a ring, ConvolveHealpix.cxx:64-66. -/
def setRing (start n : Nat) (v : ℝ) (hp : List ℝ) : Res (List ℝ) := loop (fun i hp => vset hp i v) start n hp

/-- The loop over rings, ConvolveHealpix.cxx:45-68, beginning with the polar angle of the ring before.  A ring beyond the
last one does not exist. -/
noncomputable def fillRings (t : Tools) (psf : Psf) (order : Nat) (th : ℝ) :
    List (Nat × Nat × ℝ) → Nat → ℝ → List ℝ → Res (List ℝ)
  | rest, ring, theta, hp =>
    open Classical in
    if theta < th then
      match rest with
      | [] => .ub
      | (start, n, theta') :: rest' =>
        (ringValue t psf order ring start).bind fun v =>
        (setRing start n v hp).bind fun hp' => fillRings t psf order th rest' (ring + 1) theta' hp'
    else .ok hp

/-- The scale, ConvolveHealpix.cxx:69-75. -/
noncomputable def normalize (fraction : ℝ) (hp : List ℝ) : Res (List ℝ) :=
  open Classical in
  if average hp = 0 then .ub else .ok (hp.map (fun v => v * (1 / (4 * Real.pi * average hp) * fraction)))

/-- `fillMapWithPSF_pole`, ConvolveHealpix.cxx:20-76. -/
noncomputable def fillPole (t : Tools) (psf : Psf) (nside : Nat) : Res (List ℝ) :=
  if nside ≠ 2 ^ Nat.log 2 nside then .throws
  else
    let r := min (psf.radius 0.995) 180
    let th := r * Real.pi / 180
    (fillRings t psf (Nat.log 2 nside) th (t.rings nside) 0 0 (List.replicate (12 * nside * nside) 0)).bind
      (normalize (psf.integral r))

/-! ### The convolution -/

/-- The smallest value, from `minmax` of the library. -/
noncomputable def minimum : List ℝ → ℝ
  | [] => 0
  | [x] => x
  | x :: y :: l => min x (minimum (y :: l))

/-- The removal of small values, ConvolveHealpix.cxx:248-257. -/
noncomputable def clean (l : List ℝ) : List ℝ :=
  open Classical in
  if minimum l < 0 then l.map (fun v => if v < |minimum l| then 0 else v) else l

/-- `convolve`, ConvolveHealpix.cxx:200-258. -/
noncomputable def convolve (t : Tools) (nside : Nat) (inMap psf : List ℝ) : Res (List ℝ) :=
  open Classical in
  if average inMap = 0 then .ok (List.replicate (12 * nside * nside) 0)
  else
    let out := t.transform nside inMap psf
    if average out = 0 then .ub
    else .ok (clean (out.map (fun v => v * (average inMap / average out))))

/-! ### The map -/

/-- `pixelSize` in degrees, HealpixProjMap.cxx:598-605. -/
noncomputable def pixelSize (m : Map) : ℝ := Real.sqrt m.solidAngle * 180 / Real.pi

/-- Whether the side is doubled, HealpixProjMap.cxx:474-483. -/
noncomputable def upgraded (size radius68 : ℝ) : Bool :=
  open Classical in decide (2 * (radius68 / 3 * Real.pi / 180) < size)

/-- `Import_upgrade` of the library to twice the side, in the order of rings. -/
noncomputable def upgrade (t : Tools) (n : Nat) (nest : Bool) (l : List ℝ) : Res (List ℝ) :=
  (List.range (12 * (2 * n) * (2 * n))).mapM (fun j => vget l (t.parent n nest j))

/-- `Import_degrade` of the library to half the side, both in the order of rings. -/
noncomputable def degrade (t : Tools) (n : Nat) (l : List ℝ) : Res (List ℝ) :=
  (List.range (12 * n * n)).mapM (fun i => do
    let vs ← ((List.range (12 * (2 * n) * (2 * n))).filter (fun j => t.parent n false j == i)).mapM (vget l)
    .ok (average vs))

/-- `Import_nograde` of the library to the order of rings. -/
noncomputable def nograde (t : Tools) (n : Nat) (nest : Bool) (l : List ℝ) : Res (List ℝ) :=
  (List.range (12 * n * n)).mapM (fun i => vget l (if nest then t.swap n i else i))

/-- The counts, HealpixProjMap.cxx:455-468: `expo` is the exposure at the energy, if any. -/
noncomputable def countsOf (lib : Library δ) (m : Map) (expo : Option (δ → ℝ)) (l : List ℝ) : List ℝ :=
  match expo with
  | none => l
  | some f => l.zipIdx.map (fun x => x.1 * f (lib.centre m.nside m.nest x.2))

/-- The image after the convolution, HealpixProjMap.cxx:474-503. -/
noncomputable def smear (t : Tools) (m : Map) (psf : Psf) (nest : Bool) (counts : List ℝ) : Res (List ℝ) :=
  if upgraded (pixelSize m) (psf.radius 0.68) then do
    let c ← upgrade t m.nside nest counts
    let p ← fillPole t psf (2 * m.nside)
    let o ← convolve t (2 * m.nside) c p
    degrade t m.nside o
  else do
    let c ← nograde t m.nside nest counts
    let p ← fillPole t psf m.nside
    let o ← convolve t m.nside c p
    nograde t m.nside false o

/-- `convolve`, HealpixProjMap.cxx:448-507, and the constructor of its result, HealpixProjMap.cxx:343-349: energies and
integrals are those of the map. -/
noncomputable def Map.convolve (t : Tools) (lib : Library δ) (m : Map) (psf : Psf) (expo : Option (δ → ℝ)) (perform : Bool)
    (k : Nat) : Res Map := do
  m.checkIndex k
  let p ← vget m.planes k
  let counts := countsOf lib m expo p.vals
  if !perform then .ok { m with planes := [⟨p.nside, p.nest, counts⟩] }
  else do
    let o ← smear t m psf p.nest counts
    .ok { m with planes := [⟨m.nside, false, o⟩] }

/-- `convolveAll`, HealpixProjMap.cxx:429-446: point spread function and exposure at each energy. -/
noncomputable def Map.convolveAll (t : Tools) (lib : Library δ) (m : Map) (psf : ℝ → Psf) (expo : Option (ℝ → δ → ℝ))
    (perform : Bool) : Res Map := do
  let ps ← (List.range m.energies.length).mapM (fun k => do
    let e ← vget m.energies k
    let layer ← Map.convolve t lib m (psf e) (expo.map (fun f => f e)) perform k
    vget layer.planes 0)
  Map.computeIntegrals { m with planes := ps }

end Verif.HpxConv
