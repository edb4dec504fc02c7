import Verif.Basic
import Verif.ModMap.Types
/-
Model of maps of model counts: src/ModelMap.cxx, with the parts of src/CountsMapHealpix.cxx,
src/CountsMapBase.cxx and src/FileUtils.cxx it uses.  Floating point numbers are real numbers.  Setting
an image writes as many numbers as the image has pixels, and throws if there are fewer (library tip).
Not modelled: headers and good time intervals.
-/
namespace Verif.ModMap
open Verif.HistND

/-- `toUpper`, ModelMap.cxx:52-56. -/
def toUpper (s : String) : String := String.ofList (s.toList.map Char.toUpper)

/-- The sum over the planes, in place, ModelMap.cxx:139-150. -/
noncomputable def sumPlanes (size ne : Nat) (out : List ℝ) : Res (List ℝ) :=
  loop (fun k w => loop (fun j w => do
    let x ← vget w j
    let y ← vget w (k * size + j)
    vset w j (x + y)) 0 size w) 1 (ne - 1) out

/-- `image->set`, ModelMap.cxx:170. -/
def setImage (dims : List Nat) (out : List ℝ) : Res Out :=
  if out.length < dims.prod then .throws else .ok (.image dims (out.take dims.prod))

/-- `writeOutputMap_wcs`, ModelMap.cxx:124-187: the file and the new value of `m_outmap`. -/
noncomputable def writeWcs (nx ny ne : Nat) (out : List ℝ) (type : String) : Res (Out × List ℝ) :=
  if toUpper type ≠ "CMAP" ∧ toUpper type ≠ "CCUBE" then .throws
  else if toUpper type = "CMAP" then do
    let out' ← sumPlanes (nx * ny) ne out
    let f ← setImage [nx, ny] out'
    .ok (f, out')
  else do
    let f ← setImage [nx, ny, ne] out
    .ok (f, out)

/-- `replace_image_from_hist_hpx`, FileUtils.cxx:290-343: one column, of what is at the beginning of the
data, if the histogram has only one axis. -/
def columns (h : Hist ℝ ℝ) (npix : Nat) : Res Out :=
  match h.binners with
  | _ :: e :: _ => do
    let cols ← (List.range e.n).mapM fun k : Nat => do
      let s ← h.getSlice 0 [0, k]
      (List.range npix).mapM (vget s)
    .ok (.columns cols)
  | _ => do
    let col ← (List.range npix).mapM (vget h.data)
    .ok (.columns [col])

/-- `writeOutputMap_healpix`, ModelMap.cxx:91-120, with the constructors CountsMapHealpix.cxx:68-86,
CountsMapBase.cxx:312-327, `setImage`, CountsMapBase.cxx:377-382; `counts` is the histogram of the counts
map. -/
noncomputable def writeHpx (counts : Hist ℝ ℝ) (npix ne : Nat) (out : List ℝ) (type : String) :
    Res (Out × List ℝ) :=
  if toUpper type ≠ "CMAP" ∧ toUpper type ≠ "CCUBE" then .throws
  else if toUpper type = "CCUBE" then do
    let f ← columns { counts with data := out } npix
    .ok (f, out)
  else do
    let h ← counts.sumRange 1 0 (max ne 1)
    let f ← columns { h with data := out } npix
    .ok (f, out)

/-- `writeOutputMap`, ModelMap.cxx:71-89. -/
noncomputable def write (c : Cmap) (out : List ℝ) (type : String) : Res (Out × List ℝ) :=
  match c with
  | .wcs nx ny ne => writeWcs nx ny ne out type
  | .hpx p e => do
    let counts : Hist ℝ ℝ ← Hist.new [p, e]
    writeHpx counts p.n e.n out type

/-- Calls of `writeOutputMap` one after the other on the same object: the files and the last state. -/
noncomputable def writeAll (c : Cmap) : List ℝ → List String → Res (List Out × List ℝ)
  | out, [] => .ok ([], out)
  | out, t :: ts => do
    let r ← write c out t
    let rs ← writeAll c r.2 ts
    .ok (r.1 :: rs.1, rs.2)

/-- The constructor, ModelMap.cxx:61-69: the map given, or that of the likelihood object. -/
def new (model : List ℝ) (given : Option (List ℝ)) : List ℝ :=
  match given with
  | none => model
  | some m => m

end Verif.ModMap
