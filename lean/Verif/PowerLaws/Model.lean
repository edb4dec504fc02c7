import Verif.Basic
import Verif.Spectra.Spec
import Mathlib.Analysis.SpecialFunctions.Pow.Real
/-
Models of the power laws whose normalisation is an integrated flux: `PowerLaw2` with its
cache, `BrokenPowerLaw2`, `BrokenPowerLaw3`.  Parameters are numbered in the order of the
`enum` of each function; numbers are real.
-/
namespace Verif.PowerLaws
open Verif.Spectra

/-! ### PowerLaw2 -/

/-- The cached members of a `PowerLaw2`, PowerLaw2.h:78-87.  Members the constructor has
not set before they are read hold arbitrary values; so do `XLo`, `XHi` in the first
comparison, which is decided by `Gamma`. -/
structure Cache where
  Gamma : ℝ
  XLo : ℝ
  XHi : ℝ
  LogXLo : ℝ
  LogXHi : ℝ
  PowXLo : ℝ
  PowXHi : ℝ
  GXFact : ℝ
  X : ℝ
  PowX : ℝ

/-- The static members `s_cX`, `s_cLogX`, shared by all instances, PowerLaw2.h:88-89. -/
structure Shared where
  X : ℝ
  LogX : ℝ

/-- `s_cX = 0`, `s_cLogX = 0`, PowerLaw2.cxx:23-24. -/
def Shared.start : Shared := ⟨0, 0⟩

/-- `updateCache`, PowerLaw2.h:46-75. -/
noncomputable def updateCache (s : Shared) (c : Cache) (x gamma xlo xhi : ℝ) : Shared × Cache :=
  let c1 : Cache :=
    if gamma ≠ c.Gamma ∨ xlo ≠ c.XLo ∨ xhi ≠ c.XHi then
      let one_p_gamma := 1 + gamma
      let PowXLo := xlo ^ one_p_gamma
      let PowXHi := xhi ^ one_p_gamma
      { Gamma := gamma, XLo := xlo, XHi := xhi, LogXLo := Real.log xlo, LogXHi := Real.log xhi
        PowXLo := PowXLo, PowXHi := PowXHi
        GXFact := if gamma ≠ -1 then one_p_gamma / (PowXHi - PowXLo) else c.GXFact
        X := x + 1, PowX := c.PowX }
    else c
  let s1 : Shared := if s.X ≠ x then ⟨x, Real.log x⟩ else s
  let c2 : Cache := if c1.X ≠ x then { c1 with X := x, PowX := Real.exp (s1.LogX * gamma) } else c1
  (s1, c2)

/-- The constructor, PowerLaw2.cxx:26-40: `junk` is what the uninitialised members hold. -/
noncomputable def PL2.make (s : Shared) (junk : Cache) (index lo hi : ℝ) : Shared × Cache :=
  updateCache s { junk with Gamma := index + 1, X := 0 } 1 index lo hi

/-- `value`, PowerLaw2.cxx:42-59; parameters Integral, Index, LowerLimit, UpperLimit. -/
noncomputable def PL2.value (s : Shared) (c : Cache) (p : Pars) (x : ℝ) : Shared × Cache × ℝ :=
  let gamma := (p 1).tv
  let r := updateCache s c x gamma (p 2).tv (p 3).tv
  (r.1, r.2, if gamma = -1 then (p 0).tv / x / (r.2.LogXHi - r.2.LogXLo) else (p 0).tv * r.2.GXFact * r.2.PowX)

/-- `derivByParamImp`, PowerLaw2.cxx:61-118. -/
noncomputable def PL2.deriv (s : Shared) (c : Cache) (p : Pars) (i : Nat) (x : ℝ) : Shared × Cache × Res ℝ :=
  let NN := (p 0).tv
  let gamma := (p 1).tv
  let r := updateCache s c x gamma (p 2).tv (p 3).tv
  let c := r.2
  (r.1, r.2, match i with
    | 0 => .ok ((if gamma = -1 then 1 / x / (c.LogXHi - c.LogXLo) else c.GXFact * c.PowX) * (p 0).scale)
    | 1 => .ok ((if gamma = -1 then -NN / (2 * x) * (c.LogXHi + c.LogXLo - 2 * r.1.LogX) / (c.LogXHi - c.LogXLo)
        else NN * (c.PowXHi * (1 - (1 + gamma) * (c.LogXHi - r.1.LogX)) -
          c.PowXLo * (1 - (1 + gamma) * (c.LogXLo - r.1.LogX))) / (c.PowXHi - c.PowXLo) ^ 2 * c.PowX) * (p 1).scale)
    | _ => .throws)

/-- `integral`, PowerLaw2.cxx:120-136. -/
noncomputable def PL2.integral (p : Pars) (xmin xmax : ℝ) : ℝ :=
  let gamma := -(p 1).tv
  let one_m_gam := 1 - gamma
  (p 0).tv * ((xmax ^ one_m_gam - xmin ^ one_m_gam) / ((p 3).tv ^ one_m_gam - (p 2).tv ^ one_m_gam))

/-- What can happen to a set of instances sharing the static members: creating one, copying one,
and evaluating the value or a derivative of one of them with whatever parameters it has by
then. -/
inductive PL2.Op where
  | make (junk : Cache) (index lo hi : ℝ)
  | copy (k : Nat)
  | value (k : Nat) (p : Pars) (x : ℝ)
  | deriv (k : Nat) (p : Pars) (i : Nat) (x : ℝ)

/-- The instances (as their caches) and the static members. -/
structure PL2.World where
  shared : Shared
  objs : List Cache

/-- One operation; an operation on an instance that does not exist does nothing.  Copying
(`clone`, PowerLaw2.h:38-40) copies the cached members; deleting an instance is never
looking at it again. -/
noncomputable def PL2.step (w : PL2.World) : PL2.Op → PL2.World
  | .make junk index lo hi =>
    let r := PL2.make w.shared junk index lo hi
    ⟨r.1, w.objs ++ [r.2]⟩
  | .copy k =>
    match w.objs[k]? with
    | none => w
    | some c => ⟨w.shared, w.objs ++ [c]⟩
  | .value k p x =>
    match w.objs[k]? with
    | none => w
    | some c =>
      let r := PL2.value w.shared c p x
      ⟨r.1, w.objs.set k r.2.1⟩
  | .deriv k p i x =>
    match w.objs[k]? with
    | none => w
    | some c =>
      let r := PL2.deriv w.shared c p i x
      ⟨r.1, w.objs.set k r.2.1⟩

/-- The state after a history. -/
noncomputable def PL2.run (ops : List PL2.Op) : PL2.World := ops.foldl PL2.step ⟨Shared.start, []⟩

/-! ### BrokenPowerLaw2 -/

/-- `N0_value`, BrokenPowerLaw2.cxx:218-242; parameters Integral, Index1, Index2,
BreakValue, LowerLimit, UpperLimit. -/
noncomputable def BPL2.N0 (p : Pars) : ℝ :=
  let NN := (p 0).tv
  let one_m_gam1 := 1 - -(p 1).tv
  let one_m_gam2 := 1 - -(p 2).tv
  let x0 := (p 3).tv
  let x1 := (p 4).tv
  let x2 := (p 5).tv
  if x0 < x1 then NN * one_m_gam2 / x0 / ((x2 / x0) ^ one_m_gam2 - (x1 / x0) ^ one_m_gam2)
  else if x2 < x0 then NN * one_m_gam1 / x0 / ((x2 / x0) ^ one_m_gam1 - (x1 / x0) ^ one_m_gam1)
  else NN / x0 / ((1 - (x1 / x0) ^ one_m_gam1) / one_m_gam1 + ((x2 / x0) ^ one_m_gam2 - 1) / one_m_gam2)

/-- `value`, BrokenPowerLaw2.cxx:38-56. -/
noncomputable def BPL2.value (p : Pars) (x : ℝ) : ℝ :=
  let gamma1 := -(p 1).tv
  let gamma2 := -(p 2).tv
  let x0 := (p 3).tv
  if x < x0 then BPL2.N0 p * (x / x0) ^ (-gamma1) else BPL2.N0 p * (x / x0) ^ (-gamma2)

/-- `derivByParamImp`, BrokenPowerLaw2.cxx:58-178. -/
noncomputable def BPL2.deriv (p : Pars) (i : Nat) (x : ℝ) : Res ℝ :=
  let NN := (p 0).tv
  let gamma1 := -(p 1).tv
  let gamma2 := -(p 2).tv
  let x0 := (p 3).tv
  let x1 := (p 4).tv
  let x2 := (p 5).tv
  let N0 := BPL2.N0 p
  let one_m_gam1 := 1 - gamma1
  let one_m_gam2 := 1 - gamma2
  match i with
  | 0 =>
    let dN0dN := if x0 < x1 then one_m_gam2 / x0 / ((x2 / x0) ^ one_m_gam2 - (x1 / x0) ^ one_m_gam2)
      else if x2 < x0 then one_m_gam1 / x0 / ((x2 / x0) ^ one_m_gam1 - (x1 / x0) ^ one_m_gam1)
      else 1 / x0 / ((1 - (x1 / x0) ^ one_m_gam1) / one_m_gam1 + ((x2 / x0) ^ one_m_gam2 - 1) / one_m_gam2)
    if x < x0 then .ok (dN0dN * (x / x0) ^ (-gamma1) * (p 0).scale)
    else .ok (dN0dN * (x / x0) ^ (-gamma2) * (p 0).scale)
  | 1 =>
    if x0 < x1 then .ok 0
    else
      let dN0dI1 := if x2 < x0 then
          let A1 := (x1 / x0) ^ one_m_gam1
          let A2 := (x2 / x0) ^ one_m_gam1
          let denom := A2 - A1
          NN / x0 / denom / denom * (denom - one_m_gam1 * (A2 * Real.log (x2 / x0) - A1 * Real.log (x1 / x0)))
        else -N0 * N0 * x0 / NN / one_m_gam1 / one_m_gam1 *
          ((x1 / x0) ^ one_m_gam1 * (1 - one_m_gam1 * Real.log (x1 / x0)) - 1)
      if x < x0 then .ok ((dN0dI1 + N0 * Real.log (x / x0)) * (x / x0) ^ (-gamma1) * (p 1).scale)
      else .ok (dN0dI1 * (x / x0) ^ (-gamma2) * (p 1).scale)
  | 2 =>
    if x2 < x0 then .ok 0
    else
      let dN0dI2 := if x0 < x1 then
          let A1 := (x1 / x0) ^ one_m_gam2
          let A2 := (x2 / x0) ^ one_m_gam2
          let denom := A2 - A1
          NN / x0 / denom / denom * (denom - one_m_gam2 * (A2 * Real.log (x2 / x0) - A1 * Real.log (x1 / x0)))
        else N0 * N0 * x0 / NN / one_m_gam2 / one_m_gam2 *
          ((x2 / x0) ^ one_m_gam2 * (1 - one_m_gam2 * Real.log (x2 / x0)) - 1)
      if x0 < x then .ok ((dN0dI2 + N0 * Real.log (x / x0)) * (x / x0) ^ (-gamma2) * (p 2).scale)
      else .ok (dN0dI2 * (x / x0) ^ (-gamma1) * (p 2).scale)
  | 3 =>
    let dN0dx0 := if x2 < x0 then
        -N0 * N0 / NN * (1 / one_m_gam1 - 1) * ((x2 / x0) ^ one_m_gam1 - (x1 / x0) ^ one_m_gam1)
      else if x0 < x1 then
        -N0 * N0 / NN * (1 / one_m_gam2 - 1) * ((x2 / x0) ^ one_m_gam2 - (x1 / x0) ^ one_m_gam2)
      else -N0 * N0 / NN * ((1 - (x1 / x0) ^ one_m_gam1) / one_m_gam1 + ((x2 / x0) ^ one_m_gam2 - 1) / one_m_gam2 +
        (x1 / x0) ^ one_m_gam1 - (x2 / x0) ^ one_m_gam2)
    if x < x0 then .ok ((x / x0) ^ (-gamma1) * (dN0dx0 + N0 * gamma1 / x0) * (p 3).scale)
    else .ok ((x / x0) ^ (-gamma2) * (dN0dx0 + N0 * gamma2 / x0) * (p 3).scale)
  | _ => .throws

/-- `integral`, BrokenPowerLaw2.cxx:180-216. -/
noncomputable def BPL2.integral (p : Pars) (x_min x_max : ℝ) : ℝ :=
  let xmin := if x_max < x_min then x_max else x_min
  let xmax := if x_max < x_min then x_min else x_max
  let prefactor : ℝ := if x_max < x_min then -1 else 1
  let x0 := (p 3).tv
  let one_m_gam1 := 1 - -(p 1).tv
  let one_m_gam2 := 1 - -(p 2).tv
  let N0 := BPL2.N0 p
  let my_integral :=
    if xmin < x0 ∧ x0 ≤ xmax then
      N0 * ((1 - (xmin / x0) ^ one_m_gam1) / one_m_gam1 + ((xmax / x0) ^ one_m_gam2 - 1) / one_m_gam2)
    else if x0 < xmin then N0 * ((xmax / x0) ^ one_m_gam2 - (xmin / x0) ^ one_m_gam2) / one_m_gam2
    else N0 * ((xmax / x0) ^ one_m_gam1 - (xmin / x0) ^ one_m_gam1) / one_m_gam1
  prefactor * my_integral

/-! ### BrokenPowerLaw3 -/

/-- `x0_value`, BrokenPowerLaw3.cxx:212-231; parameters Integral1, Index1, Integral2,
Index2, LowerLimit1, UpperLimit1, LowerLimit2, UpperLimit2. -/
noncomputable def BPL3.x0 (p : Pars) : ℝ :=
  let one_p_ind1 := 1 + (p 1).tv
  let one_p_ind2 := 1 + (p 3).tv
  ((p 0).tv / (p 2).tv * one_p_ind1 / one_p_ind2 * ((p 7).tv ^ one_p_ind2 - (p 6).tv ^ one_p_ind2) /
    ((p 5).tv ^ one_p_ind1 - (p 4).tv ^ one_p_ind1)) ^ (1 / ((p 3).tv - (p 1).tv))

/-- `N0_value`, BrokenPowerLaw3.cxx:197-210. -/
noncomputable def BPL3.N0 (p : Pars) (x0 : ℝ) : ℝ :=
  let one_p_ind1 := 1 + (p 1).tv
  (p 0).tv * one_p_ind1 * x0 ^ (p 1).tv / ((p 5).tv ^ one_p_ind1 - (p 4).tv ^ one_p_ind1)

/-- `value`, BrokenPowerLaw3.cxx:43-59. -/
noncomputable def BPL3.value (p : Pars) (x : ℝ) : ℝ :=
  let x0 := BPL3.x0 p
  let N0 := BPL3.N0 p x0
  if x < x0 then N0 * (x / x0) ^ (p 1).tv else N0 * (x / x0) ^ (p 3).tv

/-- `derivByParamImp`, BrokenPowerLaw3.cxx:61-150. -/
noncomputable def BPL3.deriv (p : Pars) (i : Nat) (x : ℝ) : Res ℝ :=
  let F1 := (p 0).tv
  let index1 := (p 1).tv
  let F2 := (p 2).tv
  let index2 := (p 3).tv
  let x1min := (p 4).tv
  let x1max := (p 5).tv
  let x2min := (p 6).tv
  let x2max := (p 7).tv
  let x0 := BPL3.x0 p
  let N0 := BPL3.N0 p x0
  let one_p_ind1 := 1 + index1
  let one_p_ind2 := 1 + index2
  match i with
  | 0 => if x0 ≤ x then .ok 0 else .ok ((x / x0) ^ index1 * N0 / F1 * (p 0).scale)
  | 1 => if x0 ≤ x then .ok 0
    else
      let dN0dI1 := N0 * (1 / one_p_ind1 + Real.log x0 -
        (x1max ^ one_p_ind1 * Real.log x1max - x1min ^ one_p_ind1 * Real.log x1min) /
          (x1max ^ one_p_ind1 - x1min ^ one_p_ind1))
      .ok ((x / x0) ^ index1 * (dN0dI1 + N0 * Real.log (x / x0)) * (p 1).scale)
  | 2 => if x < x0 then .ok 0 else .ok (N0 / F2 * (x / x0) ^ index2 * (p 2).scale)
  | 3 => if x < x0 then .ok 0
    else
      let dN0dI2 := N0 * (1 / one_p_ind2 + Real.log x0 -
        (x2max ^ one_p_ind2 * Real.log x2max - x2min ^ one_p_ind2 * Real.log x2min) /
          (x2max ^ one_p_ind2 - x2min ^ one_p_ind2))
      .ok ((x / x0) ^ index2 * (dN0dI2 + N0 * Real.log (x / x0)) * (p 3).scale)
  | _ => .throws

/-- `integral`, BrokenPowerLaw3.cxx:152-195. -/
noncomputable def BPL3.integral (p : Pars) (x_min x_max : ℝ) : ℝ :=
  let xmin := if x_max < x_min then x_max else x_min
  let xmax := if x_max < x_min then x_min else x_max
  let prefactor : ℝ := if x_max < x_min then -1 else 1
  let x0 := BPL3.x0 p
  let N0 := BPL3.N0 p x0
  let one_p_ind1 := 1 + (p 1).tv
  let one_p_ind2 := 1 + (p 3).tv
  let my_integral :=
    if xmin < x0 ∧ x0 ≤ xmax then
      N0 * ((1 - (xmin / x0) ^ one_p_ind1) / one_p_ind1 + ((xmax / x0) ^ one_p_ind2 - 1) / one_p_ind2)
    else if x0 < xmin then N0 * ((xmax / x0) ^ one_p_ind2 - (xmin / x0) ^ one_p_ind2) / one_p_ind2
    else N0 * ((xmax / x0) ^ one_p_ind1 - (xmin / x0) ^ one_p_ind1) / one_p_ind1
  prefactor * my_integral

end Verif.PowerLaws
