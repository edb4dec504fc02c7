import Verif.Basic
import Verif.Weights.Model
import Verif.WtTool.Types
/-
The tools gtalphabkg and gtwtsmap: src/gtalphabkg/gtalphabkg.cxx, src/gtwtsmap/gtwtsmap.cxx, and the writing of
maps of weights, src/CountsMap.cxx:476-495, src/CountsMapHealpix.cxx:215-234.

Simplifications.  A map that is written and read again is what it was (Verif.CntMap).  Good-time intervals, cuts
and the keywords of the projection are left out.  The keyword NDSKEYS, which gtalphabkg sets on an image it never
closes (gtalphabkg.cxx:115-117), is left out.  The products of floats are exact.
-/
namespace Verif.WtTool
open Verif Verif.Weights

/-- `AppHelpers::readCountsMap`: a file that cannot be read is an exception. -/
def readMap (d : Disk) (name : String) : Res Map :=
  match d name with
  | some m => .ok m
  | none => .throws

/-- A table or image opened for editing: closed once, it must not be closed again. -/
inductive Handle where
  | opened
  | closed

/-- `delete table`. -/
def Handle.delete : Handle → Res Handle
  | .opened => .ok .closed
  | .closed => .ub

/-- The table of energies, `replace_energies`, FileUtils.cxx:240-260, with `getEnergyBinGeomCenters`,
CountsMapBase.cxx:57-66, 418-420; `rnd` is the conversion to a float. -/
noncomputable def energies (rnd : ℝ → ℝ) (m : Map) : List ℝ := (centers m.edges).map rnd

/-- `writeAsWeightsMap`, CountsMap.cxx:476-495 and CountsMapHealpix.cxx:215-234.  The table of a HEALPix map is
deleted twice. -/
noncomputable def writeAsWeights (rnd : ℝ → ℝ) (m : Map) : Res WtFile := do
  let h ← Handle.opened.delete
  let e := energies rnd m
  let _ ← (match m.kind with
    | .wcs => .ok h
    | .hpx => h.delete : Res Handle)
  .ok ⟨m.npix, m.data, e, []⟩

/-- `computeWtsMap` and `updateDssKeywords`, gtwtsmap.cxx:85-121, CountsMapBase.cxx:227-237: the file that is
written. -/
noncomputable def gtwtsmap (rnd : ℝ → ℝ) (d : Disk) (effbkg alphafile : String) (eps : ℝ) : Res WtFile := do
  let alpha ← (if alphafile = "none" ∨ alphafile = "" then .ok none
    else do
      let m ← readMap d alphafile
      .ok (some m) : Res (Option Map))
  let beff ← readMap d effbkg
  let w ← makeWtsMap (eps * eps) (alpha.map Map.data) beff.data
  let f ← writeAsWeights rnd { beff with data := w }
  .ok { f with keys := f.keys ++ [("EPSILON", .num eps), ("BKGMAP", .str effbkg), ("ALPHAMAP", .str alphafile)] }

/-- The maps named in the list, gtalphabkg.cxx:97-101. -/
def readMaps (d : Disk) : List String → Res (List Map)
  | [] => .ok []
  | n :: ns => do
    let m ← readMap d n
    let ms ← readMaps d ns
    .ok (m :: ms)

/-- `computeAlphaBkg`, gtalphabkg.cxx:90-107, with `makeAlphaMap`, CountsMapBase.cxx:150-161, and the keywords of
`addAlphaMapKeywords`, CountsMapBase.cxx:213-225: the disk afterwards and the keywords.  Without maps there is no
map to write: the null pointer is used. -/
noncomputable def gtalphabkg (d : Disk) (inputs : List String) (eps : ℝ) (outfile : String) :
    Res (Disk × List (String × Val)) := do
  let ms ← readMaps d inputs
  let a ← makeAlphaMap (eps * eps) (ms.map Map.data)
  match a, ms with
  | some v, m :: _ =>
    .ok (fun n => if n = outfile then some { m with data := v } else d n,
      ("EPSILON", .num eps) :: (List.range inputs.length).filterMap fun i =>
        inputs[i]?.map fun n => ("BKGMAP" ++ toString (i + 1), .str n))
  | _, _ => .ub

end Verif.WtTool
