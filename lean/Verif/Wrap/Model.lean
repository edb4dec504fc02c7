import Verif.Wrap.Spec
/-
Spectra wrapped in another function: ScaleFactor, EnergyBand, EblAtten.

The first parameters of a wrapper are tied to those of the wrapped spectrum by
`setParRef` (optimizers::Parameter, not in the repository): setting one sets the other.
The model has one list of parameters for both.  The search for the name of the parameter
is replaced by its number.
-/
namespace Verif.Wrap
open Verif.Spectra (P Pars Partial)

/-- `ScaleFactor::prefactor`, ScaleFactor.cxx:72-79. -/
def prefactor (f : Fn) (complement : Bool) (p : Pars) : ℝ :=
  if complement then 1 - (p f.n).tv else (p f.n).tv

/-- `ScaleFactor::value`, ScaleFactor.cxx:114-117; `derivByParamImp`, 119-145. -/
def scaleFactor (f : Fn) (complement : Bool) : Fn where
  n := f.n + 1
  value p x := prefactor f complement p * f.value p x
  deriv p i x :=
    if f.n + 1 ≤ i then .throws
    else if i < f.n then do
      let d ← f.deriv p i x
      .ok (prefactor f complement p * d)
    else if complement then .ok (-f.value p x * (p f.n).scale)
    else .ok (f.value p x * (p f.n).scale)

/-- What the check of the complement form looks at: the bounds and the scale of the
parameter ScaleFactor. -/
structure FacPar where
  value : ℝ
  lo : ℝ
  hi : ℝ
  scale : ℝ

open Classical in
/-- `check_complement_usage` (true: returns; false: throws), ScaleFactor.cxx:50-70. -/
noncomputable def checkComplement (useComplement : Bool) (q : FacPar) : Bool :=
  if !useComplement then true
  else if q.lo ≠ 0 ∧ q.hi ≠ 1 then false
  else if q.scale ≠ 1 then false
  else true

/-- The factor part of a ScaleFactor object. -/
structure Fac where
  par : FacPar
  useComplement : Bool

/-- `set_complement_flag`, ScaleFactor.h:46-49: the flag is set before the check.  The
second component tells whether the call returned. -/
noncomputable def setComplementFlag (o : Fac) (flag : Bool) : Fac × Bool :=
  let o := { o with useComplement := flag }
  (o, checkComplement o.useComplement o.par)

/-- The factor as `prefactor` computes it, ScaleFactor.cxx:72-79. -/
def Fac.prefactor (o : Fac) : ℝ :=
  if o.useComplement then 1 - o.par.value * o.par.scale else o.par.value * o.par.scale

open Classical in
/-- `EnergyBand::value`, EnergyBand.cxx:73-83; `derivByParamImp`, 85-115.  The two last
parameters are Emin and Emax. -/
noncomputable def energyBand (f : Fn) : Fn where
  n := f.n + 2
  value p x := if x < (p f.n).tv ∨ (p (f.n + 1)).tv ≤ x then 0 else f.value p x
  deriv p i x :=
    if f.n ≤ i then .throws
    else if (p f.n).tv ≤ x ∧ x < (p (f.n + 1)).tv then f.deriv p i x
    else .ok 0

/-- The optical depths of the eblAtten package (not in the repository): by model, energy and
redshift. -/
abbrev Tau := ℤ → ℝ → ℝ → ℝ

/-- The number of the model in the last parameter, `static_cast<int>`. -/
noncomputable def modelOf (f : Fn) (p : Pars) : ℤ :=
  if 0 ≤ (p (f.n + 2)).tv then ⌊(p (f.n + 2)).tv⌋ else ⌈(p (f.n + 2)).tv⌉

/-- `EblAtten::attenuation`, EblAtten.cxx:158-174, with the model the object holds at that
time; returns also the model held afterwards. -/
noncomputable def attenuation (tau : Tau) (f : Fn) (held : ℤ) (p : Pars) (x : ℝ) : ℝ × ℤ :=
  let newModel := modelOf f p
  let held := if newModel ≠ held then newModel else held
  (Real.exp (-(p f.n).tv * tau held x (p (f.n + 1)).tv), held)

/-- `EblAtten::value`, EblAtten.cxx:106-109. -/
noncomputable def eblValue (tau : Tau) (f : Fn) (held : ℤ) (p : Pars) (x : ℝ) : ℝ × ℤ :=
  let a := attenuation tau f held p x
  (f.value p x * a.1, a.2)

/-- The orders in which C++ may evaluate the product of two calls in
`-value(xarg)*m_tau->operator()(energy, zz)`: the left call first; the right call first; the
pointer `m_tau` read first, then the left call, then the right one. -/
inductive Order
  | left
  | right
  | pointer
deriving DecidableEq

/-- `EblAtten::derivByParamImp`, EblAtten.cxx:111-144.  `attenuation` may replace, that is
delete, the object `m_tau` points to. -/
noncomputable def eblDeriv (tau : Tau) (f : Fn) (held : ℤ) (o : Order) (p : Pars) (i : Nat) (x : ℝ) : Res ℝ :=
  if f.n + 3 ≤ i then .throws
  else if i < f.n then do
    let d ← f.deriv p i x
    .ok ((attenuation tau f held p x).1 * d)
  else if i ≠ f.n then .throws
  else
    let zz := (p (f.n + 1)).tv
    let v := eblValue tau f held p x
    match o with
    | .left => .ok (-v.1 * tau v.2 x zz)
    | .right => .ok (-v.1 * tau held x zz)
    | .pointer => if v.2 ≠ held then .ub else .ok (-v.1 * tau held x zz)

/-- An EblAtten object whose `m_tau` holds the current model at each call. -/
noncomputable def eblAtten (tau : Tau) (f : Fn) : Fn where
  n := f.n + 3
  value p x := (eblValue tau f (modelOf f p) p x).1
  deriv p i x := eblDeriv tau f (modelOf f p) .left p i x

/-- A wrapper object: the wrapped function, the parameters of the wrapper and those of the
wrapped function. -/
structure Obj where
  f : Fn
  own : Pars
  inner : Pars
  complement : Bool

/-- `ScaleFactor::value` of an object: the factor is a parameter of the wrapper, the rest is
computed from the parameters of the wrapped spectrum, ScaleFactor.cxx:72-79,114-117. -/
def Obj.value (o : Obj) (x : ℝ) : ℝ := prefactor o.f o.complement o.own * o.f.value o.inner x

/-- `ScaleFactor::operator=`, ScaleFactor.cxx:96-103, between wrappers of spectra of the same
kind: the wrapped spectrum is replaced, the parameters of the base class are not. -/
def Obj.assign (a b : Obj) : Obj := { a with f := b.f, inner := b.inner, complement := b.complement }

/-- `FileFunction::interpolateFlux` with the interpolation of st_facilities (not in the
repository) as a parameter, FileFunction.cxx:56-73.  The `runtime_error` for a `nan` is
constructed and dropped. -/
noncomputable def interpolateFlux (interp : ℝ → Res ℝ) (logEnergy : ℝ) : Res ℝ := do
  let y ← interp logEnergy
  .ok (Real.exp y)

/-- `std::vector::front`, `back`; undefined for an empty table. -/
def front (v : List ℝ) : Res ℝ := vget v 0

/-- see `front` -/
def back (v : List ℝ) : Res ℝ := vget v (v.length - 1)

open Classical in
/-- `FileFunction::value`, FileFunction.cxx:32-42, in terms of the logarithm of the energy. -/
noncomputable def fileValue (xs ys : List ℝ) (interp : ℝ → Res ℝ) (p : Pars) (x : ℝ) : Res ℝ := do
  let a ← front xs
  if x = a then
    let y ← front ys
    .ok ((p 0).tv * Real.exp y)
  else
    let b ← back xs
    if x = b then
      let y ← back ys
      .ok ((p 0).tv * Real.exp y)
    else
      let y ← interpolateFlux interp x
      .ok ((p 0).tv * y)

/-- `FileFunction::derivByParamImp`, FileFunction.cxx:44-54. -/
noncomputable def fileDeriv (interp : ℝ → Res ℝ) (p : Pars) (x : ℝ) : Res ℝ := do
  let y ← interpolateFlux interp x
  .ok ((p 0).scale * y)

end Verif.Wrap
