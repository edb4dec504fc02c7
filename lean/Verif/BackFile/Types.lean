import Verif.Basic
import Mathlib.Data.Real.Basic
/-
Types shared by the model and the specification of background spectra.
-/
namespace Verif.BackFile

abbrev Name := List Char

/-- A free parameter of a spectrum: its error, and the derivative of the expected counts between
two energies. -/
structure Par where
  error : ℝ
  deriv : ℝ → ℝ → Res ℝ

/-- A source: the counts expected between two energies, and its free parameters. -/
structure Src where
  name : Name
  npred : ℝ → ℝ → Res ℝ
  pars : List Par

/-- A file of spectra: the bins in keV, the rows of the spectrum (value and error), the name of
the value, the keywords for the exposure time and the background file. -/
structure Pha where
  ebounds : List (ℝ × ℝ)
  rows : List (ℝ × ℝ)
  column : Name
  exposure : Option ℝ
  backfile : Option Name

/-- What gtbkg is given: the spectrum, the energies of the region of interest, the sources, the
target and the name of the output. -/
structure In where
  pha : Pha
  energies : List ℝ
  srcs : List Src
  target : Name
  outName : Name

/-- What gtbkg leaves: the input file, the output file if it exists, and the way it ends. -/
structure Out where
  input : Pha
  output : Option Pha
  result : Res Unit

end Verif.BackFile
