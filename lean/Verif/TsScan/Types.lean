import Verif.Basic
import Verif.Vec
import Mathlib.Data.Real.Basic
/-
Types of scans over positions, energies and normalizations, shared by the model and the specification.
-/
namespace Verif.TsScan

/-- The fit with the test source at one position, all energies. -/
structure Broad where
  status : Int
  logLike : ℝ
  norm : ℝ
  pos : ℝ
  neg : ℝ

/-- The fit with the test source at one position in one energy bin, and the scan over normalizations. -/
structure Bin where
  status : Int
  logLike : ℝ
  norm : ℝ
  pos : ℝ
  neg : ℝ
  ul : ℝ
  norms : List ℝ
  logLikes : List ℝ

noncomputable instance : Inhabited Bin := ⟨⟨0, 0, 0, 0, 0, 0, [], []⟩⟩

/-- The histograms over positions. -/
inductive MapKey
  | ts | status | norm | sym | pos | neg
  deriving DecidableEq

/-- The histograms over positions and energies. -/
inductive CubeKey
  | ts | status | norm | ul | sym | pos | neg | logLike
  deriving DecidableEq

/-- The histograms over positions, energies and normalizations. -/
inductive ScanKey
  | norm | dLogLike
  deriving DecidableEq

/-- What is asked for; `remake` is the flag of this name or a fit with the standard fitter at each position. -/
structure Opts where
  doMap : Bool
  doSed : Bool
  nNorm : Nat
  remake : Bool

/-- The numbers of positions (one or two axes) and energies. -/
structure Grid where
  nx : Nat
  ny : Option Nat
  nE : Nat

/-- The histograms; those that are not asked for do not exist. -/
structure Hists where
  maps : MapKey → Option (List ℝ)
  cubes : CubeKey → Option (List ℝ)
  scans : ScanKey → Option (List ℝ)

/-- A scan of one likelihood, or of a sum of likelihoods. -/
inductive Wrapper
  | single | summed
  deriving DecidableEq

/-- What the fits give at position `ix`, `iy`. -/
structure Fits where
  /-- the fit without test source -/
  null : Int × ℝ
  broad : Nat → Nat → Broad
  sed : Nat → Nat → Res (List Bin)

/-- Histograms, whether the test source is in the source model, and the number of the next position. -/
structure St where
  hists : Hists
  present : Bool
  ipix : Nat

/-- The end of a run. -/
inductive Run
  | failed (status : Int)
  | done (hists : Hists) (present : Bool)

/-- The axes of a histogram, as they are named in its description. -/
inductive Axis
  | pix | energy | norm
  deriving DecidableEq

/-- A row of the table of energies: what is written as lower and upper edge, and as reference energy. -/
structure EnergyRow where
  channel : Nat
  eMin : ℝ
  eMax : ℝ
  eRef : ℝ

end Verif.TsScan
