import Verif.CntMap.Types
/-
Types shared by the model and the specification of gtcntsmap.
-/
namespace Verif.GtCnts
open Verif.CntMap

/-- The parameter `energybinalg` with those it needs: energies in MeV and the number of energies, or a
file with energy bins. -/
inductive Alg where
  | log (emin emax : ℝ) (n : Int)
  | file (name : String)

/-- Parameters of gtcntsmap; the event files are those the parameter `evfile` stands for. -/
structure Pars where
  files : List String
  evtable : String
  alg : Alg
  lb : Bool
  ra : ℝ
  dec : ℝ
  glon : ℝ
  glat : ℝ
  nra : Nat
  ndec : Nat
  sx : ℝ
  sy : ℝ
  proj : String
  outfile : String
  clobber : Bool

/-- What the tool finds in files: event tables by file and extension, ranges of energy selected in an
extension, whether the selections of two files agree, tables of energy bins with two columns, and
which files there are. -/
structure Disk where
  events : String → String → Option (List Event)
  ranges : String → String → Option (List (ℝ × ℝ))
  same : String → String → String → Bool
  bins : String → Option (List (ℝ × ℝ))
  present : String → Bool

end Verif.GtCnts
