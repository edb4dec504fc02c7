import Verif.ScanApp.Types
import Verif.ScanFile.Spec
/-
What a program that scans is to leave.
-/
namespace Verif.ScanApp.Spec

open ScanFile

variable {W : Type}

/-- The weights that the user asked for. -/
def Weights (s : Setup W) (w : Option W) : Prop :=
  (s.wmap = "none" ∧ w = none) ∨ (s.wmap ≠ "none" ∧ ∃ m, s.maps s.wmap = some m ∧ w = some m)

/-- The weights of the standard fitter, which is used above level zero only. -/
def std (s : Setup W) (w : Option W) : Option W := if 0 < s.level then w else none

/-- The source to be moved exists. -/
def HasTarget (s : Setup W) : Prop := s.target = "" ∨ s.target ∈ s.sources

/-- The program may write its file. -/
def MayWrite (s : Setup W) : Prop := s.clobber = true ∨ s.outfile = "none" ∨ s.outfile ∉ s.files

/-- The file holds what scan `r` found: the image of the test statistic, both tables, the energies and the first fit. -/
structure Complete (s : Setup W) (r : Found) (f : File) : Prop where
  primary : f.primary = ScanFile.Spec.primary s.grid ⟨true, true, s.nNorm, s.level⟩ r
  fit : ScanFile.Spec.Holds s.grid ⟨true, true, s.nNorm, s.level⟩ r ScanFile.Spec.IsMap f.fit
  scan : ScanFile.Spec.Holds s.grid ⟨true, true, s.nNorm, s.level⟩ r (fun q => ¬ ScanFile.Spec.IsMap q) f.scan
  energies : f.energies = true
  baseline : f.baseline = some (r.pars, r.covs)

end Verif.ScanApp.Spec
