import Mathlib.Data.Real.Basic
/-
Types shared by the model and the specification of gtpsf.
-/
namespace Verif.PsfApp

/-- One row of the table of the output. -/
structure Row where
  energy : ℝ
  exposure : ℝ
  psf : List ℝ

/-- The output file: the table of the PSF and the extension `THETA`. -/
structure File where
  rows : List Row
  thetas : List ℝ

/-- The parameters. -/
structure Pars where
  cubeNone : Bool
  irfsCaldb : Bool
  emin : ℝ
  emax : ℝ
  nenergies : Int
  thetamax : ℝ
  ntheta : Int
  clobber : Bool

end Verif.PsfApp
