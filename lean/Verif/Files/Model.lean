import Verif.Basic
import Verif.Files.Types
import Mathlib.Algebra.Order.Floor.Semiring
import Mathlib.Algebra.Order.Archimedean.Real.Basic
/-
Model of the functions of `src/FileUtils.cxx` that write maps to files and read them.  The library
that handles the file is seen through `Table` and `Image`: a cell that is set is found again, a table
grows to hold a cell, new cells are zero, and column names are compared without case.  Values are
real numbers.
-/
namespace Verif.Files
open Verif

/-- `appendTable`: a table without rows and columns, FileUtils.cxx:600, 615. -/
def newTable : Table := ⟨.unset, 0, 0, []⟩

/-- `getFieldIndex` that is followed by `appendField` if it throws, FileUtils.cxx:426-432, 446-452,
503-529. -/
def ensure (t : Table) (c : Col) : Table :=
  if t.cols.any (fun x => x.1 = c) then t else { t with cols := t.cols ++ [(c, fun _ => 0)] }

/-- `col->set(i, v)`. -/
noncomputable def setCell (t : Table) (c : Col) (i : Nat) (v : ℝ) : Table :=
  { t with
    nrow := max t.nrow (i + 1)
    cols := t.cols.map fun x => if x.1 = c then (x.1, fun j => if j = i then v else x.2 j) else x }

/-- The last plane, FileUtils.cxx:382, 412, 473: a negative argument stands for all planes. -/
def top (g : Geo) (kmax : ℤ) : ℤ := if kmax < 0 then g.nData else kmax

/-- The header and the pixels, FileUtils.cxx:406-438.  That `setKeywords` sets `INDXSCHM` to
`IMPLICIT` for the whole sky and to `EXPLICIT` otherwise is taken from the library evtbin. -/
noncomputable def writeHeader (g : Geo) (t : Table) : Res Table :=
  if g.allSky then .ok { t with scheme := .implicit }
  else loop (fun i t => .ok (setCell t .pix i (g.glo i))) 0 g.npix (ensure { t with scheme := .explicit } .pix)

/-- One plane, FileUtils.cxx:453-457; the state holds the running index of the values. -/
noncomputable def writePlane (g : Geo) (data : List ℝ) (c : Col) (s : Table × Nat) : Res (Table × Nat) :=
  loop (fun j s => do
    let v ← vget data s.2
    .ok (setCell s.1 c j v, s.2 + 1)) 0 g.npix s

/-- `replace_image_from_float_vector_healpix`, FileUtils.cxx:399-460.  With a last plane below the
first the loop runs past the values. -/
noncomputable def writeFull (g : Geo) (t : Table) (w : Write ℝ) : Res Table :=
  if top g w.kmax < w.kmin then .ub
  else do
    let t ← writeHeader g t
    let s ← loop (fun e s => writePlane g w.data (.chan (e - w.kmin + 1)) (ensure s.1 (.chan (e - w.kmin + 1)), s.2))
      w.kmin ((top g w.kmax).toNat - w.kmin) (t, 0)
    .ok s.1

/-- Is the name of the column one of those with data, FileUtils.cxx:103: `find("channel") == 0`. -/
def isData : Col → Bool
  | .pix => false
  | .channel => true
  | .value => false
  | .chan _ => true

/-- `read_healpix_table_to_float_vector`, FileUtils.cxx:89-126: the values and the number of
planes. -/
def readFull (t : Table) : List ℝ × Nat :=
  let cs := t.cols.filter fun x => isData x.1
  (cs.flatMap fun x => (List.range t.nrow).map x.2, cs.length)

/-- One entry, FileUtils.cxx:534-545. -/
noncomputable def writeEntry (g : Geo) (entries : List (Nat × ℝ)) (i : Nat) (t : Table) : Res Table := do
  let x ← vget entries i
  if g.npix = 0 then .ub
  else if g.nData ≤ x.1 / g.npix then .throws
  else .ok (setCell (setCell (setCell t .pix i ((x.1 % g.npix : Nat) : ℝ)) .channel i ((x.1 / g.npix : Nat) : ℝ)) .value i x.2)

/-- `replace_image_from_sparse_vector_healpix`, FileUtils.cxx:463-547.  The keys and values of the
range of planes, lines 494-498, are not used. -/
noncomputable def writeSparse (g : Geo) (t : Table) (w : Write (Nat × ℝ)) : Res Table :=
  loop (writeEntry g w.data) 0 w.data.length
    (ensure (ensure (ensure { t with scheme := .sparse, nEnergy := (top g w.kmax - w.kmin).toNat } .pix) .channel) .value)

/-- The cells of a column; the library throws if there is none. -/
def column (t : Table) (c : Col) : Res (Nat → ℝ) :=
  match t.cols.find? fun x => x.1 = c with
  | some x => .ok x.2
  | none => .throws

/-- `read_healpix_table_to_sparse_vector`, FileUtils.cxx:128-188: the keys with their values and the
number of planes.  Rows that cannot be read are not modelled. -/
noncomputable def readSparse (npix : Nat) (t : Table) : Res (List (Nat × ℝ) × Nat) := do
  let p ← column t .pix
  let c ← column t .channel
  let v ← column t .value
  .ok ((List.range t.nrow).map fun i => (⌊c i⌋₊ * npix + ⌊p i⌋₊, v i), t.nEnergy)

/-- `get_src_map_type`, FileUtils.cxx:191-238, for a table with `PIXTYPE` healpix: is the map
sparse? -/
def typeOf (t : Table) : Option Bool :=
  match t.scheme with
  | .unset => none
  | .implicit => some false
  | .explicit => some false
  | .sparse => some true

/-- Writing full maps one after the other to the same table. -/
noncomputable def runFull (g : Geo) : List (Write ℝ) → Table → Res Table
  | [], t => .ok t
  | w :: ws, t => do
    let t ← writeFull g t w
    runFull g ws t

/-- Writing sparse maps one after the other to the same table. -/
noncomputable def runSparse (g : Geo) : List (Write (Nat × ℝ)) → Table → Res Table
  | [], t => .ok t
  | w :: ws, t => do
    let t ← writeSparse g t w
    runSparse g ws t

/-! ### Images -/

/-- `image->set`: as many values as the image holds; if there are fewer values the rest of the image
is kept. -/
def imageSet (im : Image) (data : List ℝ) : Image :=
  { im with data := data.take (im.planes * im.npix) ++ im.data.drop data.length }

/-- `setImageDimensions` with another number of planes: values are kept, new ones are zero. -/
def imageResize (im : Image) (planes : Nat) : Image :=
  { im with planes := planes, data := vresize im.data (planes * im.npix) 0 }

/-- `replace_image_from_float_vector_wcs`, FileUtils.cxx:372-397.  A range outside the values is
undefined behaviour; so is a negative number of planes. -/
def writeImage (g : Geo) (im : Image) (w : Write ℝ) : Res Image :=
  if top g w.kmax - w.kmin = g.nData then .ok (imageSet im w.data)
  else if top g w.kmax < w.kmin then .ub
  else
    let hi := (top g w.kmax).toNat
    if w.data.length < hi * g.npix then .ub
    else .ok (imageSet (imageResize im (hi - w.kmin)) ((w.data.drop (w.kmin * g.npix)).take ((hi - w.kmin) * g.npix)))

/-- `append_image_from_float_vector_wcs`, FileUtils.cxx:576-592. -/
def appendImage (g : Geo) (w : Write ℝ) : Res Image :=
  if top g w.kmax < w.kmin then .ub
  else
    let planes := (top g w.kmax).toNat - w.kmin
    writeImage g ⟨g.npix, planes, List.replicate (planes * g.npix) 0⟩ w

/-- `read_fits_image_to_float_vector`, FileUtils.cxx:76-87. -/
def readImage (im : Image) : List ℝ × Nat := (im.data, im.planes)

end Verif.Files
