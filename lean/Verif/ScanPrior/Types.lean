import Mathlib.Data.Real.Basic
/-
Types of the model of priors of scans.
-/
namespace Verif.ScanPrior

/-- A symmetric matrix: its size and its elements. -/
structure Sym where
  n : Nat
  at' : Nat → Nat → ℝ

/-- `FitScanMVPrior`: central values, covariance and its inverse, the flags, and whether the test source is
included. -/
structure Prior where
  central : List ℝ
  cov : Sym
  hess : Sym
  constrain : List Bool
  inclTest : Bool

/-- The part of `FitScanCache` that deals with priors: the number of templates, their reference values, which
of them are free, the parameters and covariance of the current fit, whether the test source is fitted, and the
priors (with and without the test source). -/
structure St where
  nbkg : Nat
  refv : List ℝ
  free : List Bool
  pars : List ℝ
  cov : Sym
  test : Bool
  fullT : Option Prior
  fullB : Option Prior
  initT : Option Prior
  initB : Option Prior
  globT : Option Prior
  globB : Option Prior
  locT : Option Prior
  locB : Option Prior

/-- `Prior_Version`, FitScanner.h. -/
inductive Version
  | none | full | init | global | local'
  deriving DecidableEq

/-- What may happen to the cache: another selection of free templates; the test source comes and goes; a fit with
any result; a prior from anywhere or from the current fit; the priors of the parameters are read again. -/
inductive Op
  | refactor (free : List Bool) (scales : List ℝ) (test : Bool)
  | addTest
  | removeTest
  | fit (pars : List ℝ) (cov : Sym)
  | external (central : List ℝ) (cov : Sym) (constrain : List Bool) (glob : Bool)
  | current (constrain : List Bool) (scale : ℝ) (glob : Bool)
  | remake (ps : List (Option (ℝ × ℝ))) (free : List Bool) (scales : List ℝ)

end Verif.ScanPrior
