import Mathlib.Data.Real.Basic
/-
Types shared by the model and the specification of the results reported by gtlike.
-/
namespace Verif.FitOut

/-- A parameter of a spectrum. -/
structure Par where
  name : List Char
  value : ℝ
  free : Bool
  error : ℝ

/-- A source model: the names of the sources, in order, with the parameters of their
spectra. -/
abbrev Mod := List (List Char × List Par)

/-- One turn of the fit loop: the model as it is after it was read and fitted, whether the
fit ended without an exception, the uncertainties (`none` if their computation throws) and
the covariance matrix (`none` if it throws). -/
structure Round where
  mod : Mod
  fitted : Bool
  unc : Option (List ℝ)
  cov : Option (List (List ℝ))

/-- A line of the results: source, parameter, value and error, if one is shown. -/
structure Line where
  src : List Char
  par : List Char
  value : ℝ
  error : Option ℝ

end Verif.FitOut
