import Verif.ScanApp.Types
import Verif.ScanFile.Model
/-
`gttscube` and `gthealcube`, src/TsCube/TsCube.cxx and src/TsCube/HealCube.cxx.  The scan itself is the subject of `Verif.TsScan`; here it
is given as a function of the weights it uses.
-/
namespace Verif.ScanApp

open ScanFile

variable {W : Type}

/-- `checkOutputFile`, src/AppHelpers.cxx:589-601. -/
def mayWrite (s : Setup W) : Bool := s.clobber || s.outfile == "none" || !(s.files.contains s.outfile)

/-- The map of weights, `makeBinnedLikelihood`, src/AppHelpers.cxx:1139-1147: none if the name is `none`; a file that cannot be read
throws. -/
def readWeights (s : Setup W) : Res (Option W) :=
  if s.wmap ≠ "none" then
    match s.maps s.wmap with
    | none => .throws
    | some w => .ok (some w)
  else .ok none

/-- The source that is moved, src/TsCube/TsCube.cxx:200-206 with FitScanner.cxx:2728-2777, 2808-2836. -/
def testSource (s : Setup W) : Res Unit :=
  if s.target.isEmpty then .ok ()
  else if s.target ∈ s.sources then .ok ()
  else .throws

/-- Whether the scan uses weights, src/TsCube/TsCube.cxx:240-242: `m_wmap != 0`, where `m_wmap` is set to 0 (104) and never again.  In
src/TsCube/HealCube.cxx:234-235 the arguments are left out, and it is false, FitScanner.h:1374. -/
def useWeights (_ : Option W) : Bool := false

/-- `run_tscube`: `scan` has as arguments the weights of the likelihood, which the standard fitter uses, if its level is above zero
(FitScanner.cxx:2181-2185, 2196-2201), and those that are handed to the linear fitter (2219 with 1339). -/
def scanWith (scan : Option W → Option W → Found) (level : Int) (w : Option W) : Found :=
  scan (if 0 < level then w else none) (if useWeights w then w else none)

/-- `run`, src/TsCube/TsCube.cxx:140-156, HealCube.cxx:134-150: the status of the scan is not looked at (TsCube.cxx:244-249), and the file
has all parts and no good times (253-260, FitScanner.h:1377-1381). -/
noncomputable def run (scan : Option W → Option W → Found) (s : Setup W) : Res Out :=
  if !mayWrite s then .ok .refused
  else do
    let w ← readWeights s
    let _ ← testSource s
    let sc ← ScanFile.run ⟨true, true, s.nNorm, s.level⟩ (scanWith scan s.level w) (ScanFile.start s.grid)
    let f ← ScanFile.write 0 false 0x3F sc
    .ok (.written f)

end Verif.ScanApp
