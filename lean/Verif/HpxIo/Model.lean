import Mathlib.Tactic.Common
import Verif.Basic
import Verif.HpxIo.Types
/-
Model of the reading of HEALPix counts maps (src/CountsMapHealpix.cxx:46-66, 300-339), of their writing
(src/FileUtils.cxx:290-343), of the slices of histograms (src/HistND.cxx:73-84, 91-159) for the two axes of
these maps, and of the dimensions of counts maps (src/CountsMapBase.cxx:384-404) with their use by the
test sources of a scan (src/FitScanner.cxx:50-62).

Values are of any type with a zero: the conversions between `float` and `double` are exact in the direction
taken here.
-/
namespace Verif.HpxIo

variable {β : Type}

/-- A histogram with a pixel axis of `nPix` and an energy axis of `nE` bins; strides 1 and `nPix`. -/
structure Hist (β : Type) where
  nPix : Nat
  nE : Nat
  data : List β

/-- Values copied to `m_data` from `idx` on, HistND.cxx:117-122, with stride 1. -/
def fill : Nat → List β → List β → Res (List β)
  | _, [], d => .ok d
  | idx, v :: vs, d => do
    let d ← vset d idx v
    fill (idx + 1) vs d

/-- `setSlice(0, [0, e], col)`, HistND.cxx:91-124; `binIndex` does not check ranges, 73-84. -/
def setSlice (h : Hist β) (e : Nat) (col : List β) : Res (Hist β) :=
  if col.length ≠ h.nPix then .throws
  else do
    let d ← fill (1 * 0 + h.nPix * e) col h.data
    .ok { h with data := d }

/-- `getSlice(0, [0, e])`, HistND.cxx:127-159. -/
def getSlice (h : Hist β) (e : Nat) : Res (List β) :=
  (List.range h.nPix).mapM fun i : Nat => vget h.data (1 * 0 + h.nPix * e + i)

/-- Whether a column is read, CountsMapHealpix.cxx:312-319; tip gives names in lower case. -/
def isData (n : Name) : Bool := ['c', 'h', 'a', 'n', 'n', 'e', 'l'].isPrefixOf (n.map Char.toLower)

/-- The columns one after the other, CountsMapHealpix.cxx:329-338. -/
def readCols : Nat → List (List β) → Hist β → Res (Hist β)
  | _, [], h => .ok h
  | e, c :: cs, h => do
    let h ← setSlice h e c
    readCols (e + 1) cs h

/-- `readImageData`, CountsMapHealpix.cxx:300-339, for a binner with `nPix` pixels and an energy binner
with `nE` bins. -/
def read (zero : β) (nPix nE : Nat) (t : Table β) : Res (Hist β) :=
  readCols 0 ((t.cols.filter fun c => isData c.1).map (·.2)) ⟨nPix, nE, List.replicate (nPix * nE) zero⟩

/-- The name of the column for an energy bin, FileUtils.cxx:324-325. -/
def channelName (e : Nat) : Name := ['C', 'H', 'A', 'N', 'N', 'E', 'L'] ++ (Nat.repr (e + 1)).toList

/-- `replace_image_from_hist_hpx`, FileUtils.cxx:290-343, with the prefix `CHANNEL` of `writeOutput`,
CountsMapHealpix.cxx:205; `pix` are the pixel indices of a map that does not cover the sky. -/
def write (pix : Option (List β)) (h : Hist β) : Res (Table β) := do
  let cols ← (List.range h.nE).mapM fun e : Nat => do
    let s ← getSlice h e
    .ok (channelName e, s)
  match pix with
  | none => .ok ⟨h.nPix, cols⟩
  | some p => .ok ⟨h.nPix, (['P', 'I', 'X'], p) :: cols⟩

/-- `imageDimension`, CountsMapBase.cxx:384-391, for a map with the axes `dims`. -/
def imageDimension (dims : List Nat) (i : Int) : Res Nat :=
  if i < 0 ∨ i > 2 then .throws else vget dims i.toNat

/-- The axes of a test source of a scan, FitScanner.cxx:57-59. -/
def testAxes (dims : List Nat) : Res (Nat × Nat × Nat) := do
  let nx ← imageDimension dims 0
  let ny ← imageDimension dims 1
  let ne ← imageDimension dims 2
  .ok (nx, ny, ne)

end Verif.HpxIo
