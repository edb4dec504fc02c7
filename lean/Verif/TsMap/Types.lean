import Mathlib.Data.Real.Basic
/-
Types shared by the model and the specification of the map of test statistics.
-/
namespace Verif.TsMap

/-- The parameters of gttsmap that fix the map. -/
structure Opts where
  nx : Nat
  ny : Nat
  xref : ℝ
  yref : ℝ
  binsz : ℝ
  coordsys : List Char
  proj : List Char
  binned : Bool

/-- A projection: its name, the reference pixel, the coordinates of that pixel, the steps and
whether the coordinates are galactic. -/
structure Proj where
  name : List Char
  crpix : ℝ × ℝ
  crval : ℝ × ℝ
  cdelt : ℝ × ℝ
  galactic : Bool

/-- An image with its keywords; the first axis varies fastest. -/
structure Image where
  naxis1 : Nat
  naxis2 : Nat
  crpix : ℝ × ℝ
  crval : ℝ × ℝ
  cdelt : ℝ × ℝ
  ctype1 : List Char
  ctype2 : List Char
  pixels : List ℝ

/-- The ways a fit ends, with the model it leaves. -/
inductive Fit (M : Type) where
  | done (m : M)
  | fails (m : M)
  | dies (m : M)

end Verif.TsMap
