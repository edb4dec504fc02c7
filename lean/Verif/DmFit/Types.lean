import Mathlib.Data.Real.Basic

/-!
# The dark-matter spectrum: its parameters
-/

namespace Verif.DmFit

/-- A parameter: its value as the optimizer sees it and its scale. -/
structure Par where
  value : ℝ
  scale : ℝ

/-- The value of the parameter in the formula. -/
def Par.eff (p : Par) : ℝ := p.value * p.scale

/-- A dark-matter spectrum: normalisation, cross section, mass in GeV, share of the first channel, and
the numbers of the two channels. -/
structure Fn where
  norm : Par
  sigmav : Par
  mass : Par
  bratio : Par
  channel0 : Int
  channel1 : Int

/-- The names of the parameters. -/
inductive Which where
  | norm | sigmav | mass | bratio | channel0 | channel1 | unknown

/-- A text file of numbers: its lines. -/
abbrev Lines := List (List ℝ)

end Verif.DmFit
