import Mathlib.Data.Real.Basic
import Verif.StdMap
/-
Types shared by the model and the specification of the test statistics of gtlike.
-/
namespace Verif.TsVal

/-- A parameter of a spectrum. -/
structure Par where
  value : ℝ
  lo : ℝ
  hi : ℝ
  free : Bool

/-- The type of a source; a point source has a direction. -/
inductive Kind (D : Type) where
  | point (d : D)
  | diffuse
  | composite

/-- A source: its type, the parameters of its spectrum and the index of the parameter
that is the normalisation. -/
structure Src (D : Type) where
  kind : Kind D
  pars : List Par
  norm : Nat

/-- A source model: the sources in order of their names. -/
abbrev Mod (κ D : Type) := List (κ × Src D)

/-- What gtlike gets from elsewhere. -/
structure Setup (κ D : Type) where
  /-- the log-likelihood of a source model, `none` if its computation throws -/
  value : Mod κ D → Option ℝ
  /-- the predicted counts of a source -/
  npred : Src D → ℝ
  /-- the separation of two directions in degrees -/
  sep : D → D → ℝ
  /-- the number of observed counts -/
  observed : ℝ
  /-- the values of the free parameters at which the optimizer stops, whether it converges
  or throws -/
  fit : Mod κ D → List ℝ
  /-- the parameter `tsmin` of gtlike -/
  tsmin : Bool
  /-- whether the statistic is the binned one -/
  binned : Bool
  /-- the centre of the region of interest -/
  centre : D

/-- The separation in degrees up to which point sources are rescaled; `m_maxdist(20.)` in
the constructor, likelihood.cxx:184. -/
def maxdist : ℝ := 20

end Verif.TsVal
