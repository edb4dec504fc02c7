import Verif.Files.Types2
import Verif.Energy.Model
import Verif.Drm.Model
/-
Model of the functions of `src/FileUtils.cxx` for the table of parameters and the table of the energy
response.
-/
namespace Verif.Files
open Verif

/-! ### Parameters -/

/-- The columns of names hold 32 characters, FileUtils.cxx:644-646. -/
def clip (n : Name) : Name := n.take 32

/-- `write_parameter_to_table`, FileUtils.cxx:707-725: the cells of row `irec`; writing the row behind
the last one adds it. -/
def writePar (srcName funcName : Name) (p : Par) (s : List Row × Nat) : List Row × Nat :=
  let r : Row := ⟨clip srcName, clip funcName, clip p.name, p.value, p.scale, p.error, p.free⟩
  (if s.2 < s.1.length then s.1.set s.2 r else s.1 ++ [r], s.2 + 1)

/-- `write_function_parameters_to_table`, FileUtils.cxx:683-704. -/
def writeFunc (srcName : Name) (s : List Row × Nat) (f : Func) : List Row × Nat :=
  f.pars.foldl (fun s p => writePar srcName f.name p s) s

/-- `write_source_parameters_to_table`, FileUtils.cxx:663-681.  The functions come in the order of
their keys; the keys in use besides "Spectrum" are "Position" (PointSource.cxx:59) and "SpatialDist"
(DiffuseSource.cxx:38), which come before it. -/
def writeSrc (s : List Row × Nat) (x : Src) : List Row × Nat :=
  (x.others ++ [x.spectrum]).foldl (writeFunc x.name) s

/-- `write_model_parameters_to_table`, FileUtils.cxx:637-662. -/
def writePars (srcs : List Src) : List Row := (srcs.foldl writeSrc ([], 0)).1

/-- The function name that `SourceModel` accepts. -/
def spectrumName : Name := "Spectrum".toList

/-- `SourceModel::getParam`, SourceModel.cxx:354-364: the arguments are parameter, function,
source. -/
def getParam (m : List Src) (paramName funcName srcName : Name) : Res Par :=
  match m.find? fun x => x.name = srcName with
  | none => .throws
  | some x =>
    if funcName = spectrumName then
      match x.spectrum.pars.find? fun p => p.name = paramName with
      | none => .throws
      | some p => .ok p
    else .throws

/-- Replaces the parameter of the same name. -/
def Func.setPar (f : Func) (q : Par) : Func := { f with pars := f.pars.map fun p => if p.name = q.name then q else p }

/-- `SourceModel::setParam`, SourceModel.cxx:321-334. -/
def setParam (m : List Src) (q : Par) (funcName srcName : Name) : Res (List Src) :=
  match m.find? fun x => x.name = srcName with
  | none => .throws
  | some x =>
    if funcName = spectrumName then
      if x.spectrum.pars.any fun p => p.name = q.name then
        .ok (m.map fun y => if y.name = srcName then { y with spectrum := y.spectrum.setPar q } else y)
      else .throws
    else .throws

/-- One row, FileUtils.cxx:768-782: `getParam(src_name, func_name, par_name)`. -/
def readRow (m : List Src) (r : Row) : Res (List Src) := do
  let p ← getParam m r.src r.func r.par
  setParam m ⟨p.name, r.value, r.scale, r.error, r.free⟩ r.func r.src

/-- `read_parameters_from_table`, FileUtils.cxx:745-784.  Bounds of parameters are not modelled. -/
def readPars (m : List Src) : List Row → Res (List Src)
  | [] => .ok m
  | r :: rs => do
    let m ← readRow m r
    readPars m rs

/-! ### Energy response -/

/-- One row, FileUtils.cxx:831-838; `row(k)` throws out of range. -/
def writeDrmRow (full : List ℝ) (rows : List (List ℝ)) (i : Nat) (t : List DrmRow) : Res (List DrmRow) := do
  let lo ← vget full i
  let hi ← vget full (i + 1)
  match rows[i]? with
  | some r => .ok (t ++ [⟨lo, hi, r⟩])
  | none => .throws

/-- The rows of `write_drm_to_table`, FileUtils.cxx:787-841, for a response with the given energies,
extra bins and values. -/
noncomputable def writeDrm (energies : List ℝ) (bins : Nat) (rows : List (List ℝ)) : Res (List DrmRow) := do
  let full ← Energy.expandEnergies energies bins
  loop (writeDrmRow full rows) 0 (energies.length + 2 * bins - 1) []

/-- `read_drm_from_table`, FileUtils.cxx:843-882, with the constructor, Drm.cxx:78-111, whose last
argument is left at its default 0.  A vector of size -1 throws.  The result are the energies and the
response. -/
noncomputable def readDrm (t : List DrmRow) : Res (List ℝ × Drm.Rsp) :=
  if t.length = 0 then .throws
  else do
    let energies := (t.drop 1).map DrmRow.lo
    let d ← Drm.mkDrm energies 0 (t.map DrmRow.matrix)
    let _ ← Drm.transpose d
    .ok (energies, d)

end Verif.Files
