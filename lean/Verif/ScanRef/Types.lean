import Mathlib.Data.Real.Basic
/-
What the model and the specification of the reference values of a scan share.
-/
namespace Verif.ScanRef

/-- What is asked of a test source: can its exposure be computed, the flux, the energy flux and the number
of events between two energies, its spectrum. -/
structure Src where
  exposed : Bool
  flux : ℝ → ℝ → ℝ
  eflux : ℝ → ℝ → ℝ
  npred : ℝ → ℝ → ℝ
  dnde : ℝ → ℝ

/-- A row of the table `EBOUNDS` of a file of scan results. -/
structure Row where
  channel : Nat
  emin : ℝ
  emax : ℝ
  eref : ℝ
  dnde : ℝ
  flux : ℝ
  eflux : ℝ
  npred : ℝ

end Verif.ScanRef
