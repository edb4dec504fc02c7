import Verif.ScanFile.Types
/-
Types of the programs that scan over positions and energies, shared by the model and the specification.
-/
namespace Verif.ScanApp

open TsScan (Grid)

/-- What a program is asked for: the grid, the number of normalizations and the level of the standard fitter, the name of the map of
weights, the name of the source to be moved over the grid (empty: a power law), the name of the output file, whether it may be
overwritten; and what there is: the maps by file name, the sources of the model, and the files. -/
structure Setup (W : Type) where
  grid : Grid
  nNorm : Nat
  level : Int
  wmap : String
  target : String
  outfile : String
  clobber : Bool
  maps : String → Option W
  sources : List String
  files : List String

/-- How a program ends. -/
inductive Out
  /-- it ends with status 1 and does nothing -/
  | refused
  /-- it ends with status 0 and has written a file -/
  | written (f : ScanFile.File)

end Verif.ScanApp
