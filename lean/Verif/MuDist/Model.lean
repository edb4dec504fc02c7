import Verif.Vec
import Verif.TrapQuad.Model
import Mathlib.Analysis.SpecialFunctions.Trigonometric.Basic
import Mathlib.Analysis.SpecialFunctions.Log.Basic
import Mathlib.Analysis.SpecialFunctions.Sqrt
import Mathlib.Data.List.Sort
import Mathlib.Algebra.Order.Floor.Semiring
import Mathlib.Algebra.Order.Archimedean.Real.Basic

/-!
# Sampled angles for diffuse responses: the program

`LogNormalMuDist`, src/LogNormalMuDist.cxx, and the integral over the sky made with it,
`Event::computeResponse`, src/Event.cxx:231-312.  `double` is `ℝ`.  The numerical error function of
lines 21-32 is an arbitrary function `erf`.
-/

namespace Verif.MuDist

/-- The parameters of the object, LogNormalMuDist.h:36-49. -/
structure Cfg where
  slope : ℝ
  intercept : ℝ
  sigma : ℝ
  emin : ℝ
  emax : ℝ
  numEnergies : ℕ
  numMu : ℕ

/-- `m_estep`, LogNormalMuDist.cxx:52. -/
noncomputable def estep (c : Cfg) : ℝ := (Real.log c.emax - Real.log c.emin) / ((c.numEnergies : ℝ) - 1)

/-- `muValue`, LogNormalMuDist.cxx:65-67. -/
noncomputable def muValue (c : Cfg) (energy : ℝ) : ℝ := Real.log energy * c.slope + c.intercept

/-- `std::upper_bound` in a sorted sequence: the first element greater than `xi`. -/
noncomputable def upper (xi : ℝ) : List ℝ → Option ℕ
  | [] => none
  | c :: cs => open Classical in if xi < c then some 0 else (upper xi cs).map (· + 1)

/-- The angles, LogNormalMuDist.cxx:74-82. -/
noncomputable def angles (nx : ℕ) : List ℝ :=
  let xmin : ℝ := 1 / 10000
  let xmax : ℝ := 2 * Real.pi
  let xstep := Real.log (xmax / xmin) / ((nx : ℝ) - 1)
  (List.range nx).map (fun i : ℕ => xmin * Real.exp (xstep * i))

/-- The distribution at the angles, LogNormalMuDist.cxx:83-84. -/
noncomputable def cdfs (erf : ℝ → ℝ) (sigma mu : ℝ) (xx : List ℝ) : List ℝ :=
  xx.map (fun x => 1 / 2 + 1 / 2 * erf ((Real.log x - mu) / sigma / Real.sqrt 2))

/-- One pass of the loop, LogNormalMuDist.cxx:90-98.  With the first element already greater,
`at(indx-1)` throws. -/
noncomputable def pass (xx cdf : List ℝ) (xi : ℝ) (mus : List ℝ) : Res (List ℝ) :=
  match upper xi cdf with
  | none => .ok mus
  | some 0 => .throws
  | some (k + 1) => do
    let c0 ← vget cdf k
    let c1 ← vget cdf (k + 1)
    let x0 ← vget xx k
    let x1 ← vget xx (k + 1)
    .ok (Real.cos ((xi - c0) / (c1 - c0) * (x1 - x0) + x0) :: mus)

/-- The loop, LogNormalMuDist.cxx:87-99. -/
noncomputable def passes (xx cdf : List ℝ) : List ℝ → List ℝ → Res (List ℝ)
  | [], mus => .ok mus
  | xi :: xis, mus => do
    let mus' ← pass xx cdf xi mus
    passes xx cdf xis mus'

/-- `createSample`, LogNormalMuDist.cxx:73-105. -/
noncomputable def createSample (erf : ℝ → ℝ) (sigma : ℝ) (nx : ℕ) (mu : ℝ) : Res (List ℝ) := do
  let xx := angles nx
  let cdf := cdfs erf sigma mu xx
  let dxi : ℝ := 1 / ((nx : ℝ) - 1)
  let mus ← passes xx cdf ((List.range (nx - 1)).map (fun i : ℕ => dxi * ((i : ℝ) + 1))) []
  .ok (mus.insertionSort (· ≤ ·))

/-- The constructor, LogNormalMuDist.cxx:46-63: the samples of the bands of energy. -/
noncomputable def new (erf : ℝ → ℝ) (c : Cfg) : Res (List (List ℝ)) :=
  (List.range (c.numEnergies - 1)).mapM (fun k : ℕ =>
    createSample erf c.sigma c.numMu
      (muValue c (Real.exp (estep c * ((k : ℝ) + 1 / 2) + Real.log c.emin))))

/-- `energyIndex`, LogNormalMuDist.cxx:107-115. -/
noncomputable def energyIndex (c : Cfg) (bands : ℕ) (energy : ℝ) : ℕ :=
  open Classical in
  if Real.log energy ≤ Real.log c.emin then 1
  else if Real.log c.emax ≤ Real.log energy then bands - 1
  else ⌊(Real.log energy - Real.log c.emin) / estep c⌋₊

/-- `muPoints`, LogNormalMuDist.cxx:69-71. -/
noncomputable def muPoints (c : Cfg) (pts : List (List ℝ)) (energy : ℝ) : Res (List ℝ) :=
  match pts[energyIndex c pts.length energy]? with
  | some l => .ok l
  | none => .throws

/-- `s_phi`, Event.cxx:362-366. -/
noncomputable def phis (nphi : ℕ) : List ℝ :=
  (List.range nphi).map (fun i : ℕ => 2 * Real.pi / ((nphi : ℝ) - 1) * i)

/-- What the event sees of a source in the direction given by the cosine of the angle and the
azimuth: inclination in degrees, response, value of the source. -/
structure View where
  inc : ℝ → ℝ → ℝ
  resp : ℝ → ℝ → ℝ
  srcDist : ℝ → ℝ → ℝ

/-- One direction, Event.cxx:274-291. -/
noncomputable def cell (v : View) (mu phi : ℝ) : Res ℝ :=
  open Classical in
  if v.inc mu phi < 90 then
    if v.srcDist mu phi < 0 then .throws else .ok (v.resp mu phi * v.srcDist mu phi)
  else .ok 0

/-- The integral over the azimuth, Event.cxx:268-298. -/
noncomputable def phiIntegral (v : View) (ps : List ℝ) (mu : ℝ) : Res ℝ := do
  let r ← ps.mapM (cell v mu)
  TrapQuad.computeIntegral ps r

/-- `computeResponse` for one source that is new to the event, Event.cxx:246-311.  (The sources do
not influence each other, but a negative one ends the computation for all.  Without energy dispersion, which is refused, there is one true
energy.) -/
noncomputable def computeResponse (v : View) (ps mus : List ℝ) : Res ℝ := do
  let r ← mus.mapM (phiIntegral v ps)
  let value ← TrapQuad.computeIntegral mus r
  if (open Classical in decide (value < 0)) then .throws else .ok value

end Verif.MuDist
