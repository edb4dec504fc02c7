import Mathlib.Data.Real.Basic
/-
What a snapshot looks at: parameters, functions and sources.  Names
(`std::string`) are an arbitrary type `κ`.
-/
namespace Verif.Snap

variable {κ : Type}

/-! ### Parameters and sources -/

/-- The log-prior function of a parameter: its kind, and the names and values of
its parameters. -/
structure Prior (κ : Type) where
  /-- `genericName()` -/
  kind : κ
  /-- names and values, in order -/
  pars : List (κ × ℝ)

/-- `optimizers::Parameter`: value, scale, whether it is free, and the prior. -/
structure Par (κ : Type) where
  /-- `getValue()` -/
  value : ℝ
  /-- `getScale()` -/
  scale : ℝ
  /-- `isFree()` -/
  free : Bool
  /-- `has_prior()` and `log_prior()` -/
  prior : Option (Prior κ)

/-- `getTrueValue()`. -/
def Par.tv (p : Par κ) : ℝ := p.value * p.scale

/-- A function of a source: kind and parameters in order. -/
structure Fn (κ : Type) where
  /-- `genericName()` -/
  kind : κ
  /-- names and parameters -/
  pars : List (κ × Par κ)

/-- A source: the normalisation parameter of its spectrum, the spectrum with its
other parameters, and the other functions (`Position`, `SpatialDist`) by key. -/
structure Src (κ : Type) where
  /-- `spectrum().normPar()` -/
  norm : Par κ
  /-- `spectrum()` without the normalisation parameter -/
  spec : Fn κ
  /-- `getSrcFuncs()` without `Spectrum`, by key -/
  funcs : List (κ × Fn κ)

/-- What is done with a scan cache between fits: an update, after the model has become
`m`, or adding and removing the test source. -/
inductive Op (κ : Type) where
  | update (m : List (κ × Src κ))
  | addTest (v : ℝ)
  | removeTest

end Verif.Snap
