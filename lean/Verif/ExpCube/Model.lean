import Verif.Basic
import Verif.Energy.Model
import Verif.ExpCube.Types
import Mathlib.Analysis.SpecialFunctions.Log.Basic
import Mathlib.Analysis.SpecialFunctions.Sqrt
/-
Model of gtexpcube2 (src/gtexpcube2/gtexpcube2.cxx): which exposure map is computed, that is for
which geometry and which energies.  The values are those of Verif.BinExp; cuts, header keywords and
good time intervals in the output are not modelled.  The energies a counts map object has are those
of the table of its file (FileUtils.cxx:59-74).
-/
namespace Verif.ExpCube

/-- Energies from a table of bins, in MeV: gtexpcube2.cxx:330-343, 346-361, FileUtils.cxx:59-74.
For a table without rows the upper bound is not initialised. -/
noncomputable def edges : List Row → Res (List ℝ)
  | [] => .ub
  | r :: rs => .ok ((r :: rs).map (fun x => x.emin / 1000) ++
      [((r :: rs).getLast (by simp)).emax / 1000])

/-- `expand_energies` for any number of bins: FitUtils.cxx:52-77.  A negative number makes a vector
that is too short, and the copy goes to a place before it. -/
noncomputable def expandInt (es : List ℝ) (b : Int) : Res (List ℝ) :=
  if es.length < 2 then .ok es
  else if b < 0 then .ub
  else Energy.expandEnergies es b.toNat

/-- Logarithmically equal steps: gtexpcube2.cxx:363-369.  With no bins the step is a division by
zero. -/
noncomputable def logEdges (emin emax : ℝ) (n : Nat) : Res (List ℝ) :=
  if n = 0 then .ub
  else .ok ((List.range (n + 1)).map fun k : Nat => emin * Real.exp (Real.log (emax / emin) / n * k))

/-- `have_user_energies`: gtexpcube2.cxx:303-323. -/
def haveEnergies (p : Pars) : Bool :=
  match p.ebin with
  | .file f => f.isSome
  | .log a b n => a.isSome && b.isSome && n.isSome

/-- `have_user_sky_geom_wcs`: gtexpcube2.cxx:269-284. -/
def haveSky (p : Pars) : Bool :=
  p.nxpix.isSome && p.nypix.isSome && p.binsz.isSome && p.xref.isSome && p.yref.isSome

/-- `have_user_sky_geom_hpx`: gtexpcube2.cxx:286-298. -/
def haveHpx (p : Pars) : Bool := p.order.isSome

/-- The energies from the parameters: gtexpcube2.cxx:345-370; a file that does not exist and a
parameter that is `INDEF` throw. -/
noncomputable def userEdges (d : Disk) (p : Pars) : Res (List ℝ) :=
  match p.ebin with
  | .file none => .throws
  | .file (some f) =>
    match d.bins f with
    | none => .throws
    | some rows => edges rows
  | .log (some a) (some b) (some n) => logEdges a b n
  | .log _ _ _ => .throws

/-- `generateEnergies`: gtexpcube2.cxx:325-374; `bins` are those of the counts map, if they are to
be used. -/
noncomputable def generateEnergies (d : Disk) (p : Pars) (bins : Option (List Row)) (b : Int) :
    Res (List ℝ) := do
  let es ← match bins with
    | some rows => edges rows
    | none => userEdges d p
  expandInt es b

/-- Mean energies of the bins, computed in place: gtexpcube2.cxx:182-187, BinnedExposure.cxx:50-54.
An element is replaced before the next one, which it needs, is. -/
noncomputable def centers : List ℝ → Res (List ℝ)
  | [] => .ub
  | [_] => .ok []
  | a :: b :: l => do
    let r ← centers (b :: l)
    .ok (Real.sqrt (a * b) :: r)

/-- With or without mean energies. -/
noncomputable def finish (center : Bool) (es : List ℝ) : Res (List ℝ) :=
  if center then centers es else .ok es

/-- Geometry from the parameters, `setMapGeometry`: BinnedExposure.cxx:208-229. -/
noncomputable def skyOf (nx ny : Nat) (binsz xref yref rot : ℝ) (proj : String) (gal : Bool) : Sky where
  proj := proj
  crpix := ((nx : ℝ) / 2 + 0.5, (ny : ℝ) / 2 + 0.5)
  crval := (xref, yref)
  cdelt := (-binsz, binsz)
  rot := rot
  gal := gal
  n0 := nx
  n1 := ny

/-- Geometry for a map with the energies of the parameters or the geometry of the parameters:
gtexpcube2.cxx:188-206. -/
noncomputable def skyFor (p : Pars) (cmap : Option Sky) : Res Sky :=
  match p.nxpix, p.nypix, p.binsz, p.xref, p.yref with
  | some nx, some ny, some bs, some x, some y => .ok (skyOf nx ny bs x y p.axisrot p.proj p.gal)
  | _, _, _, _, _ =>
    match cmap with
    | none => .throws
    | some s => .ok (skyOf s.n0 s.n1 |s.cdelt.1| s.crval.1 s.crval.2 s.rot s.proj s.gal)

/-- `run_wcs`: gtexpcube2.cxx:170-218; `edisp` has been made non-negative, but the constructor for a
counts map (BinnedExposure.cxx:40-58) takes the parameter as it is. -/
noncomputable def runWcs (d : Disk) (p : Pars) (cmap : Option (Sky × List Row)) (edisp : Int) :
    Res Out :=
  if haveEnergies p || haveSky p then do
    let es ← generateEnergies d p (if haveEnergies p then none else cmap.map Prod.snd) edisp
    let es ← finish p.center es
    let s ← skyFor p (cmap.map Prod.fst)
    .ok (.wcs s es)
  else
    match cmap with
    | none => .throws
    | some (s, rows) => do
      let es ← edges rows
      let es ← expandInt es p.edisp
      let es ← finish p.center es
      .ok (.wcs s es)

/-- The order of a map: the logarithm of the number of divisions if this is a power of two, else
-1 (`Healpix_Base::Order`). -/
def orderOf (nside : Nat) : Option Nat := if 2 ^ nside.log2 = nside then some nside.log2 else none

/-- The geometry of a HEALPix map: gtexpcube2.cxx:239-252, BinnedHealpixExposure.cxx:197-206.  A
projection of order -1 cannot be made. -/
def hpxFor (p : Pars) (cmap : Option Hpx) : Res Hpx :=
  match p.order with
  | some o => .ok ⟨2 ^ o, p.ring, p.gal⟩
  | none =>
    match cmap with
    | none => .throws
    | some h =>
      match orderOf h.nside with
      | none => .throws
      | some o => .ok ⟨2 ^ o, h.ring, h.gal⟩

/-- `run_hpx`: gtexpcube2.cxx:221-264, BinnedHealpixExposure.cxx:40-60, 187-194. -/
noncomputable def runHpx (d : Disk) (p : Pars) (cmap : Option (Hpx × List Row)) (edisp : Int) :
    Res Out :=
  if haveEnergies p || haveHpx p then do
    let es ← generateEnergies d p (if haveEnergies p then none else cmap.map Prod.snd) edisp
    let es ← finish p.center es
    let s ← hpxFor p (cmap.map Prod.fst)
    .ok (.hpx s es)
  else
    match cmap with
    | none => .throws
    | some (s, rows) => do
      let es ← edges rows
      let es ← expandInt es p.edisp
      let es ← finish p.center es
      .ok (.hpx s es)

/-- `run`: gtexpcube2.cxx:113-167, `check_cmap_null` :91-97. -/
noncomputable def run (d : Disk) (p : Pars) : Res Out :=
  match p.cmap with
  | .noMap => runWcs d p none (max p.edisp 0)
  | .noHpx => runHpx d p none (max p.edisp 0)
  | .file f =>
    match d.cmap f with
    | none => .throws
    | some (.wcs s rows) => runWcs d p (some (s, rows)) (max p.edisp 0)
    | some (.hpx h rows) => runHpx d p (some (h, rows)) (max p.edisp 0)
    | some .other => .throws

end Verif.ExpCube
