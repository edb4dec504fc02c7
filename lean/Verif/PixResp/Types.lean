import Verif.Basic
import Mathlib.Analysis.SpecialFunctions.Trigonometric.Inverse
import Mathlib.Analysis.SpecialFunctions.Pow.Real
/-
Types of the responses of diffuse sources from the pixels of their maps.
-/
namespace Verif.PixResp

/-- A direction: longitude and latitude in degrees. -/
abbrev Dir := ℝ × ℝ

/-- A projection: the direction of a place in the image, nothing if there is none (an exception of the library). -/
abbrev Proj := ℝ → ℝ → Option Dir

/-- A map as far as its pixels are concerned. -/
structure Grid where
  proj : Proj
  naxis1 : Nat
  naxis2 : Nat

/-- The kinds of spatial models that are told apart by name. -/
inductive Kind where
  | isotropic
  | gaussian
  | disk
  | profile
  | map
deriving DecidableEq

/-- A spatial model: position, size as given (sigma of a Gaussian, radius of a disk, last angle of a profile, in degrees;
radius of a map in radians). -/
structure Spatial where
  kind : Kind
  centre : Dir
  width : ℝ

/-- A diffuse source: the size is negative until it is asked for. -/
structure Src where
  spatial : Spatial
  radius : ℝ
  energies : List ℝ
  exposure : List ℝ

/-- What is done to a source. -/
inductive Op where
  /-- `moveSource(dir, updateExposure)` -/
  | move (d : Dir) (update : Bool)
  /-- the spatial model gets a new size, `setParams` and `update` -/
  | resize (w : ℝ)
  /-- `mapRadius()` -/
  | size
  /-- `computeExposure(energies)` -/
  | expose (energies : List ℝ)

/-- A spectrum with values of parameters: value at an energy, derivatives, and the parameter called "Prefactor" if
any. -/
structure Spectrum where
  value : ℝ → ℝ
  deriv : ℝ → List Char → ℝ
  prefactor : Option ℝ

end Verif.PixResp
