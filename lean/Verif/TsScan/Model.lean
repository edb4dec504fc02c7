import Verif.TsScan.Types
import Verif.ScanNorm.Model
import Mathlib.Analysis.SpecialFunctions.Sqrt
/-
Model of `FitScanner::run_tscube`, `sed_binned_newton` and the files written by `writeFitsFile`.
-/
namespace Verif.TsScan
open ScanNorm

/-! ### Energy bins -/

/-- One energy bin of `sed_binned_newton`, FitScanner.cxx:3050-3086: `fit` gives the status, the cache after the fit and its log
likelihood.  Every fit starts from the same parameters (`m_initPars`, FitScanner.cxx:1341-1342), so that it does not depend on the
bins before.  The codes of the errors and of the scan are not looked at. -/
noncomputable def sedBin (trunc : ℝ → Int) (inv : List (List ℝ) → Int × (List ℝ → List ℝ))
    (svd : List (List ℝ) → ℝ → List ℝ → Int × List ℝ) (nnorm : Nat) (sigma : ℝ) (fit : Res (Int × Cache × ℝ)) : Res Bin := do
  let f ← fit
  if f.1 ≠ 0 then .ok ⟨f.1, 0, -1, -1, -1, -1, List.replicate nnorm 0, List.replicate nnorm 0⟩
  else
    match f.2.1.test with
    | none => .ub
    | some t => do
      let norm ← vget f.2.1.pars t
      let e ← signalUncertainty trunc f.2.1 0.5 ⟨0, 0⟩
      let u ← signalUncertainty trunc f.2.1 1.36 ⟨0, 0⟩
      let r ← signalUncertainty trunc f.2.1 (0.5 * sigma * sigma) ⟨0, u.2.neg⟩
      let s ← scanNormalization inv svd f.2.1 nnorm 1 r.2.pos r.2.neg
      .ok ⟨f.1, f.2.2, norm, e.2.pos, e.2.neg, u.2.pos, s.norms, s.logLikes⟩

/-- `sed_binned_newton`, FitScanner.cxx:2994-3092, with a cache: the number of failed bins, and the bins. -/
noncomputable def sedBinned (trunc : ℝ → Int) (inv : List (List ℝ) → Int × (List ℝ → List ℝ))
    (svd : List (List ℝ) → ℝ → List ℝ → Int × List ℝ) (nnorm : Nat) (sigma : ℝ) (fit : Nat → Res (Int × Cache × ℝ)) (nE : Nat) :
    Res (Nat × List Bin) := do
  let bins ← (List.range nE).mapM (fun i => sedBin trunc inv svd nnorm sigma (fit i))
  .ok ((bins.filter (fun b => b.status ≠ 0)).length, bins)

/-! ### Histograms -/

/-- `nPixels`, FitScanner.cxx:2709-2717. -/
def Grid.nPixels (g : Grid) : Nat := g.nx * g.ny.getD 1

/-- The number of positions, FitScanner.cxx:2379. -/
def npix (g : Grid) (o : Opts) : Nat := if o.doMap then g.nPixels else 1

/-- The histograms, FitScanner.cxx:2321-2341, with `buildHist`, 3121-3162. -/
noncomputable def build (g : Grid) (o : Opts) : Hists where
  maps := fun k => match k with
    | .ts => some (List.replicate g.nPixels 0)
    | .status => some (List.replicate g.nPixels 0)
    | _ => if o.doMap then some (List.replicate g.nPixels 0) else none
  cubes := fun _ => if o.doSed then some (List.replicate (npix g o * g.nE) 0) else none
  scans := fun _ => if 0 < o.nNorm then some (List.replicate (npix g o * g.nE * o.nNorm) 0) else none

/-- `setBinDirect` of several histograms, those that exist; HistND.h:49 does not test the index. -/
def setAll {κ : Type} [DecidableEq κ] (i : Nat) (f : κ → ℝ) : List κ → (κ → Option (List ℝ)) → Res (κ → Option (List ℝ))
  | [], h => .ok h
  | k :: ks, h =>
    match h k with
    | none => setAll i f ks h
    | some l => do
      let l' ← vset l i (f k)
      setAll i f ks (fun j => if j = k then some l' else h j)

/-- `symmetricError`, FitUtils.cxx:504-506. -/
noncomputable def symErr (pos neg : ℝ) : ℝ := open Classical in if neg < 0 then pos else (pos + neg) / 2

/-- The values in the maps, FitScanner.cxx:2463-2476. -/
noncomputable def broadValue (null : ℝ) (b : Broad) : MapKey → ℝ
  | .ts => 2 * (b.logLike - null)
  | .norm => b.norm
  | .pos => b.pos
  | .neg => b.neg
  | .sym => symErr b.pos b.neg
  | .status => b.status

/-- The values in the cubes, FitScanner.cxx:2537-2546; `l0` is the first log likelihood of the scan. -/
noncomputable def cubeValue (b : Bin) (l0 : ℝ) : CubeKey → ℝ
  | .ts => 2 * (b.logLike - l0)
  | .status => b.status
  | .norm => b.norm
  | .sym => symErr b.pos b.neg
  | .pos => b.pos
  | .neg => b.neg
  | .ul => b.ul
  | .logLike => b.logLike

/-- The values of the scan, FitScanner.cxx:2559-2561. -/
noncomputable def scanValue (b : Bin) (x l : ℝ) : ScanKey → ℝ
  | .norm => x
  | .dLogLike => l - b.logLike

/-- One energy bin, FitScanner.cxx:2535-2567. -/
noncomputable def fillBin (o : Opts) (npix ipix iE : Nat) (b : Bin) (h : Hists) : Res Hists := do
  let l0 ← vget b.logLikes 0
  let cubes ← setAll (ipix + iE * npix) (cubeValue b l0) [.ts, .status, .norm, .sym, .pos, .neg, .ul, .logLike] h.cubes
  loop (fun iN h => do
    let l ← vget b.logLikes iN
    let x ← vget b.norms iN
    let scans ← setAll (iE * (npix * o.nNorm) + ipix + iN * npix) (scanValue b x l) [.norm, .dLogLike] h.scans
    .ok ⟨h.maps, h.cubes, scans⟩) 0 o.nNorm ⟨h.maps, cubes, h.scans⟩

/-- The loop over energies, FitScanner.cxx:2529-2568. -/
noncomputable def fillSed (g : Grid) (o : Opts) (ipix : Nat) (bins : List Bin) (h : Hists) : Res Hists :=
  loop (fun iE h => do
    let b ← vget bins iE
    fillBin o (npix g o) ipix iE b h) 0 g.nE h

/-- A histogram that is not tested for existence, FitScanner.cxx:2453, 2456. -/
def setStatus (h : Option (List ℝ)) (i : Nat) (v : ℝ) : Res (Option (List ℝ)) :=
  match h with
  | none => .ub
  | some l => do
    let l' ← vset l i v
    .ok (some l')

/-- A fit that failed, FitScanner.cxx:2447-2460. -/
noncomputable def failPixel (g : Grid) (o : Opts) (ipix : Nat) (status : Int) (h : Hists) : Res Hists := do
  let m ← setStatus (h.maps .status) ipix status
  loop (fun iE h => do
    let c ← setStatus (h.cubes .status) (ipix + iE * npix g o) status
    .ok ⟨h.maps, fun k => if k = .status then c else h.cubes k, h.scans⟩) 0 g.nE
    ⟨fun k => if k = .status then m else h.maps k, h.cubes, h.scans⟩

/-! ### The run -/

/-- `addTestSourceToModel`, FitScanner.cxx:2900-2918: the test source is removed, then added with a new map.  For one likelihood the
map is made from the source of that name in the model (FitScanner.cxx:540-542, BinnedLikelihood.cxx:414-417), which is a null
pointer as it was removed; for a sum it is made from the test source itself, FitScanner.cxx:838-845. -/
def addTest (w : Wrapper) : Res Bool :=
  match w with
  | .single => .ub
  | .summed => .ok true

/-- FitScanner.cxx:2401-2407: the test source in the model, if asked for. -/
def prepare (w : Wrapper) (o : Opts) (present : Bool) : Res Bool := if o.remake then addTest w else .ok present

/-- One position, FitScanner.cxx:2383-2573. -/
noncomputable def pixel (w : Wrapper) (g : Grid) (o : Opts) (f : Fits) (iy ix : Nat) (st : St) : Res St := do
  let p ← prepare w o st.present
  if (f.broad ix iy).status ≠ 0 then do
    let h ← failPixel g o st.ipix (f.broad ix iy).status st.hists
    .ok ⟨h, p, st.ipix + 1⟩
  else do
    let maps ← setAll st.ipix (broadValue f.null.2 (f.broad ix iy)) [.ts, .norm, .pos, .neg, .sym] st.hists.maps
    if !o.doSed then .ok ⟨⟨maps, st.hists.cubes, st.hists.scans⟩, if o.remake then false else p, st.ipix + 1⟩
    else do
      let bins ← f.sed ix iy
      let h ← fillSed g o st.ipix bins ⟨maps, st.hists.cubes, st.hists.scans⟩
      .ok ⟨h, if o.remake then false else p, st.ipix + 1⟩

/-- `run_tscube`, FitScanner.cxx:2153-2596, with the fits given: the fit without test source first, then all positions. -/
noncomputable def run (w : Wrapper) (g : Grid) (o : Opts) (f : Fits) : Res Run :=
  if f.null.1 ≠ 0 then .ok (.failed f.null.1)
  else do
    let st ← loop (fun iy st => loop (fun ix st => pixel w g o f iy ix st) 0 (if o.doMap then g.nx else 1) st) 0
      (if o.doMap then g.ny.getD 1 else 1) ⟨build g o, false, 0⟩
    .ok (.done st.hists st.present)

/-! ### The file -/

/-- One column of `writeFitsTable_byPixel`, FitScanner.cxx:3253-3288: the cells of the rows. -/
def column (hist : List ℝ) (npix : Nat) : Res (List (List ℝ)) :=
  if npix = 0 then .ub
  else (List.range npix).mapM (fun p => (List.range (hist.length / npix)).mapM (fun d => vget hist (p + d * npix)))

/-- `convertDimString`, FitScanner.cxx:3362-3399, with the default arguments: the dimensions of cells, if there are several. -/
def tdim (g : Grid) (nNorm : Nat) (axes : List Axis) : Option (List Nat) :=
  let ds := axes.reverse.filterMap (fun a => match a with
    | .pix => none
    | .energy => some g.nE
    | .norm => some nNorm)
  if 1 < ds.length then some ds else none

/-- The axes of the scans, FitScanner.cxx:2334-2335, with the names of `buildHist`, 3129-3152. -/
def scanAxes (o : Opts) : List Axis := (if o.doMap then [.pix] else []) ++ [.energy, .norm]

/-- Rows of the table of energies, FitScanner.cxx:442-449, 488-490, and the reference energies, 419-422. -/
noncomputable def energyRow (energies : List ℝ) (i : Nat) : Res EnergyRow := do
  let a ← vget energies i
  let b ← vget energies (i + 1)
  .ok ⟨i + 1, 1000 * a, 1000 * b, Real.sqrt (a * b)⟩

end Verif.TsScan
