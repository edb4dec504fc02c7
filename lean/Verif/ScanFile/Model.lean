import Verif.ScanFile.Types
import Verif.TsScan.Model
/-
The histograms of a scanner over several runs, and the file it writes, FitScanner.cxx:2250-2349, 2599-2706, 3121-3357.
-/
namespace Verif.ScanFile

open TsScan (Grid Axis)

/-! ### Histograms -/

/-- `m_outLocs`, FitScanner.cxx:2268-2316, with the numbers of FitScanner.h:1242-1248. -/
def outLocs : List (Name × Nat) :=
  [(⟨.tsMap, false⟩, 1 ||| 4), (⟨.tsMap, true⟩, 1 ||| 4), (⟨.okMap, false⟩, 4), (⟨.normMap, false⟩, 4), (⟨.symMap, false⟩, 4),
   (⟨.posMap, false⟩, 4), (⟨.negMap, false⟩, 4),
   (⟨.tsCube, false⟩, 8), (⟨.tsCube, true⟩, 8), (⟨.okCube, false⟩, 8), (⟨.normCube, false⟩, 8), (⟨.normCube, true⟩, 8),
   (⟨.ulCube, false⟩, 8), (⟨.symCube, false⟩, 8), (⟨.posCube, false⟩, 8), (⟨.negCube, false⟩, 8), (⟨.llCube, false⟩, 8),
   (⟨.llCube, true⟩, 8),
   (⟨.normScan, false⟩, 8), (⟨.dllScan, false⟩, 8), (⟨.normScan, true⟩, 8), (⟨.dllScan, true⟩, 8)]

/-- The axes of the positions, FitScanner.cxx:3130-3134. -/
def pixDims (g : Grid) : List Nat :=
  match g.ny with
  | none => [g.nx]
  | some ny => [g.nx, ny]

/-- `buildHist`, FitScanner.cxx:3121-3162: the histogram is put behind those that are there.  The binner of energies always exists
(FitScanner.cxx:1981, 2013, 2054, 2092); the size is the product of the numbers of bins, HistND.cxx:12-31.  The values are those that
the run puts in afterwards. -/
noncomputable def buildHist (vals : Name → Nat → ℝ) (n : Name) (pix energy norm : Bool) (s : Scanner) : Res Scanner :=
  let dims := (if pix then pixDims s.grid else []) ++ (if energy then [s.grid.nE] else [])
  let axes := (if pix then [Axis.pix] else []) ++ (if energy then [Axis.energy] else []) ++ (if norm then [Axis.norm] else [])
  match norm, s.normBins with
  | true, none => .throws
  | true, some k =>
    .ok { s with scanData := s.scanData ++ [(n, ⟨dims ++ [k], axes, (List.range (dims ++ [k]).prod).map (vals n)⟩)] }
  | false, _ =>
    if dims.length = 0 then .ok s
    else .ok { s with scanData := s.scanData ++ [(n, ⟨dims, axes, (List.range dims.prod).map (vals n)⟩)] }

/-- `c ? buildHist(...) : 0`, FitScanner.cxx:2325-2349. -/
noncomputable def buildIf (c : Bool) (vals : Name → Nat → ℝ) (n : Name) (pix energy norm : Bool) (s : Scanner) : Res Scanner :=
  if c then buildHist vals n pix energy norm s else .ok s

/-- The histograms of one run, FitScanner.cxx:2324-2349: under which condition each is made, its name and its axes. -/
def plan (o : Opts) : List (Bool × Name × Bool × Bool × Bool) :=
  let scan := decide (0 < o.nNorm)
  let bb := decide (1 < o.level)
  let sed := decide (2 < o.level)
  let nst := decide (3 < o.level)
  [(true, ⟨.tsMap, false⟩, true, false, false), (true, ⟨.okMap, false⟩, true, false, false),
   (o.doMap, ⟨.normMap, false⟩, true, false, false), (o.doMap, ⟨.posMap, false⟩, true, false, false),
   (o.doMap, ⟨.negMap, false⟩, true, false, false), (o.doMap, ⟨.symMap, false⟩, true, false, false),
   (o.doSed, ⟨.tsCube, false⟩, o.doMap, true, false), (o.doSed, ⟨.okCube, false⟩, o.doMap, true, false),
   (o.doSed, ⟨.normCube, false⟩, o.doMap, true, false), (o.doSed, ⟨.ulCube, false⟩, o.doMap, true, false),
   (o.doSed, ⟨.symCube, false⟩, o.doMap, true, false), (o.doSed, ⟨.posCube, false⟩, o.doMap, true, false),
   (o.doSed, ⟨.negCube, false⟩, o.doMap, true, false), (o.doSed, ⟨.llCube, false⟩, o.doMap, true, false),
   (scan, ⟨.normScan, false⟩, o.doMap, true, true), (scan, ⟨.dllScan, false⟩, o.doMap, true, true),
   (bb && o.doMap, ⟨.tsMap, true⟩, true, false, false), (sed && o.doSed, ⟨.tsCube, true⟩, o.doMap, true, false),
   (sed && o.doSed, ⟨.normCube, true⟩, o.doMap, true, false), (sed && o.doSed, ⟨.llCube, true⟩, o.doMap, true, false),
   (nst && scan, ⟨.normScan, true⟩, o.doMap, true, true), (nst && scan, ⟨.dllScan, true⟩, o.doMap, true, true)]

/-- The histograms of one run, one after the other. -/
noncomputable def buildAll (vals : Name → Nat → ℝ) : List (Bool × Name × Bool × Bool × Bool) → Scanner → Res Scanner
  | [], s => .ok s
  | (c, n, p, e, k) :: l, s => do
    let s' ← buildIf c vals n p e k s
    buildAll vals l s'

/-- `run_tscube`, FitScanner.cxx:2153-2596, as to what is kept: if the first fit fails (2228-2235) nothing is changed; otherwise its
parameters are kept (2237-2238), the binner of normalizations is made if there is a scan (2260-2262), the places of the histograms are
set (2269-2316) and the histograms are made (2320-2349).  The histograms of earlier runs are not removed. -/
noncomputable def run (o : Opts) (r : Found) (s : Scanner) : Res Scanner :=
  if r.status ≠ 0 then .ok s
  else buildAll r.vals (plan o)
    { s with
      baseline := some (r.pars, r.covs)
      normBins := if 0 < o.nNorm then some o.nNorm else s.normBins
      locs := outLocs
      hasMap := o.doMap }

/-- Several runs. -/
noncomputable def runs : List (Opts × Found) → Scanner → Res Scanner
  | [], s => .ok s
  | (o, r) :: l, s => do
    let s' ← run o r s
    runs l s'

/-- A new scanner, FitScanner.cxx:1950-2098. -/
def start (g : Grid) : Scanner := ⟨g, [], [], false, none, none⟩

/-! ### The file -/

/-- `writeFitsImage`, FitScanner.cxx:3165-3231: the dimensions and the data of the image. -/
def image (g : Grid) (h : Hist) : Res (List Nat × List ℝ) :=
  match g.ny with
  | none => .throws
  | some ny =>
    if g.nx = 0 ∨ ny = 0 then .throws
    else match h.dims with
      | [x, y] => if x ≠ g.nx then .throws else if y ≠ ny then .throws else .ok ([g.nx, ny], h.data)
      | [x, y, z] => if x ≠ g.nx then .throws else if y ≠ ny then .throws else .ok ([g.nx, ny, z], h.data)
      | _ => .throws

/-- The histograms, sorted by place. -/
structure Sorted where
  primary : Option (List Nat × List ℝ)
  images : List (Name × List Nat × List ℝ)
  fit : List (Name × Hist)
  scan : List (Name × Hist)

/-- The image in the primary part, FitScanner.cxx:2636-2640: the mask is not looked at. -/
def toPrimary (g : Grid) (loc : Nat) (h : Hist) (old : Option (List Nat × List ℝ)) : Res (Option (List Nat × List ℝ)) :=
  if loc &&& 1 ≠ 0 ∧ g.ny.isSome then do
    let i ← image g h
    .ok (some i)
  else .ok old

/-- The image in a part of its own, FitScanner.cxx:2641-2645. -/
def toImages (g : Grid) (mask loc : Nat) (n : Name) (h : Hist) (old : List (Name × List Nat × List ℝ)) :
    Res (List (Name × List Nat × List ℝ)) :=
  if loc &&& 2 &&& mask ≠ 0 ∧ g.ny.isSome then do
    let i ← image g h
    .ok (old ++ [(n, i)])
  else .ok old

/-- The loop over the histograms, FitScanner.cxx:2628-2656. -/
def sortHists (g : Grid) (locs : List (Name × Nat)) (mask : Nat) : List (Name × Hist) → Sorted → Res Sorted
  | [], a => .ok a
  | (n, h) :: l, a =>
    match locs.lookup n with
    | none => .throws
    | some loc => do
      let p ← toPrimary g loc h a.primary
      let i ← toImages g mask loc n h a.images
      sortHists g locs mask l
        ⟨p, i, if loc &&& 4 &&& mask ≠ 0 then a.fit ++ [(n, h)] else a.fit,
          if loc &&& 8 &&& mask ≠ 0 then a.scan ++ [(n, h)] else a.scan⟩

/-- `header.setKeyword`. -/
def setKey (k : Nat) (v : List Nat) (l : List (Nat × List Nat)) : List (Nat × List Nat) := (k, v) :: l.filter (fun p => p.1 ≠ k)

/-- The keyword `TDIM` of a column, if it has several dimensions, FitScanner.cxx:3270-3274. -/
def newDim (k : Nat) (d : Option (List Nat)) (l : List (Nat × List Nat)) : List (Nat × List Nat) :=
  match d with
  | none => l
  | some v => setKey k v l

/-- One column of `writeFitsTable_byPixel`, FitScanner.cxx:3258-3288.  `appendField` throws if the column exists (see the use at
diffuseResponses/diffuseResponses.cxx:464-484).  The keyword has the number of the column in the loop (3275, 3402-3408), not in the table. -/
noncomputable def addColumn (g : Grid) (nNorm npix icol : Nat) (n : Name) (h : Hist) (t : Table) : Res Table :=
  if npix = 0 then .ub
  else if n ∈ t.cols.map Column.name then .throws
  else do
    let cells ← TsScan.column h.data npix
    .ok ⟨t.base, t.cols ++ [⟨n, cells⟩],
      newDim (icol + 1) (TsScan.tdim g nNorm h.axes) t.tdim⟩

/-- The loop over the columns, FitScanner.cxx:3258-3289. -/
noncomputable def addColumns (g : Grid) (nNorm npix : Nat) : Nat → List (Name × Hist) → Table → Res Table
  | _, [], t => .ok t
  | i, (n, h) :: l, t => do
    let t' ← addColumn g nNorm npix i n h t
    addColumns g nNorm npix (i + 1) l t'

/-- `writeFitsTable_byPixel`, FitScanner.cxx:3236-3293, if the part is asked for (2659, 2668). -/
noncomputable def writeTable (s : Scanner) (asked : Bool) (l : List (Name × Hist)) (t : Table) : Res Table :=
  if asked then addColumns s.grid (s.normBins.getD 0) (if s.hasMap then s.grid.nPixels else 1) 0 l t else .ok t

/-- `writeFitsFile`, FitScanner.cxx:2599-2706, with `base` columns in the tables of the template (none in data/TsCubeTemplate). -/
noncomputable def write (base : Nat) (copyGtis : Bool) (mask : Nat) (s : Scanner) : Res File := do
  let a ← sortHists s.grid s.locs mask s.scanData ⟨none, [], [], []⟩
  let fit ← writeTable s (4 &&& mask ≠ 0) a.fit ⟨base, [], []⟩
  let scan ← writeTable s (8 &&& mask ≠ 0) a.scan ⟨base, [], []⟩
  .ok ⟨a.primary, a.images, fit, scan, 16 &&& mask ≠ 0, if 32 &&& mask ≠ 0 then s.baseline else none, copyGtis⟩

/-! ### Units of the table of energies -/

/-- `header.setKeyword`. -/
def Header.set (h : Header) (k : Kw) (v : String) : Header := ⟨h.fields, fun j => if j = k then some v else h.kws j⟩

/-- `appendField`: the name of the new column. -/
def Header.append (h : Header) (n : String) : Header := ⟨h.fields + 1, fun j => if j = .ttype (h.fields + 1) then some n else h.kws j⟩

/-- `setUnitKeyword`, FitScanner.cxx:498-505; `icol` counts from 0. -/
def setUnit (h : Header) (icol : Nat) (u : String) : Header := h.set (.tdim (icol + 1)) u

/-- The names of the new columns, FitScanner.cxx:461-471. -/
def fluxNames : List String := ["E_REF", "REF_DNDE", "REF_FLUX", "REF_EFLUX", "REF_NPRED"]

/-- The units, FitScanner.cxx:479-483. -/
def fluxUnits : List String := ["keV", "ph / (MeV cm2 s)", "ph / (cm2 s)", "MeV / (cm2 s)", "ph"]

/-- The units of columns from `i` on. -/
def setUnits : Nat → List String → Header → Header
  | _, [], h => h
  | i, u :: l, h => setUnits (i + 1) l (setUnit h i u)

/-- `writeFits_FluxTable`, FitScanner.cxx:455-496, as to the header: all columns are appended, then their units are set. -/
def fluxHeader (h : Header) : Header := setUnits h.fields fluxUnits (fluxNames.foldl Header.append h)

end Verif.ScanFile
