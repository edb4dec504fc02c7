import Verif.Basic
import Verif.Vec
import Verif.TsScan.Types
/-
Types of the file of a scan over positions, energies and normalizations, shared by the model and the specification.
-/
namespace Verif.ScanFile

open TsScan (Grid Axis)

/-- What a histogram of a scan holds. -/
inductive Quantity
  | tsMap | okMap | normMap | symMap | posMap | negMap
  | tsCube | okCube | normCube | ulCube | symCube | posCube | negCube | llCube
  | normScan | dllScan
  deriving DecidableEq

/-- The name of a histogram; `st` is for the ending of those filled by the standard fitter. -/
structure Name where
  q : Quantity
  st : Bool
  deriving DecidableEq

/-- What is asked for. -/
structure Opts where
  doMap : Bool
  doSed : Bool
  nNorm : Nat
  level : Int

/-- A histogram. -/
structure Hist where
  dims : List Nat
  axes : List Axis
  data : List ℝ

/-- What a run finds: the status of the first fit, the values of the histograms, bin by bin, and the parameters and covariances of the
first fit. -/
structure Found where
  status : Int
  vals : Name → Nat → ℝ
  pars : List ℝ
  covs : List (List ℝ)

/-- What the scanner keeps from run to run. -/
structure Scanner where
  grid : Grid
  scanData : List (Name × Hist)
  locs : List (Name × Nat)
  hasMap : Bool
  normBins : Option Nat
  baseline : Option (List ℝ × List (List ℝ))

/-- A column of a table: one cell for each row. -/
structure Column where
  name : Name
  cells : List (List ℝ)

/-- A table: the number of its columns in the template, the columns that were added, and the keywords `TDIM`. -/
structure Table where
  base : Nat
  cols : List Column
  tdim : List (Nat × List Nat)

/-- The file.  A part that was not written is as in the template. -/
structure File where
  primary : Option (List Nat × List ℝ)
  images : List (Name × List Nat × List ℝ)
  fit : Table
  scan : Table
  energies : Bool
  baseline : Option (List ℝ × List (List ℝ))
  gtis : Bool

/-- Keywords of a column. -/
inductive Kw
  | ttype (i : Nat)
  | tdim (i : Nat)
  | tunit (i : Nat)
  deriving DecidableEq

/-- The header of a table of numbers: its number of columns, and its keywords. -/
structure Header where
  fields : Nat
  kws : Kw → Option String

end Verif.ScanFile
