import Verif.GtCnts.Types
import Verif.CntMap.Model
/-
Model of gtcntsmap: src/gtcntsmap/gtcntsmap.cxx.  Counts maps are those of Verif.CntMap.  Not
modelled: time keywords, good time intervals and the copy of the selections to the output file
(gtcntsmap.cxx:178-184); that several files agree is one number of the model (see Verif.Cuts for the
comparison itself).
-/
namespace Verif.GtCnts
open Verif.CntMap

/-- `logArray`, gtcntsmap.cxx:186-196: the number of energies is converted to an unsigned number, so
that for none or fewer the loop runs until memory is exhausted; with one energy the last element of an
empty vector is written to. -/
noncomputable def logArray (a b : ℝ) (n : Int) : Res (List ℝ × List ℝ) :=
  if n ≤ 0 then .throws
  else if n = 1 then .ub
  else
    let step := Real.log (b / a) / (n - 1)
    let m := (n - 1).toNat
    .ok ((List.range m).map (fun i : Nat => a * Real.exp (i * step)),
      ((List.range m).map (fun i : Nat => a * Real.exp ((i + 1) * step))).set (m - 1) b)

/-- `readEbounds`, gtcntsmap.cxx:211-225; a file that cannot be read throws. -/
def readEbounds (d : Disk) (name : String) : Res (List ℝ × List ℝ) :=
  match d.bins name with
  | none => .throws
  | some rows => .ok (rows.map Prod.fst, rows.map Prod.snd)

/-- The bounds of the energy bins, gtcntsmap.cxx:107-117. -/
noncomputable def energies (d : Disk) (p : Pars) : Res (List ℝ × List ℝ) :=
  match p.alg with
  | .file name => readEbounds d name
  | .log a b n => logArray a b n

/-- `m_cuts->accept`, for an energy: all ranges are closed intervals. -/
def accept (rs : List (ℝ × ℝ)) (e : ℝ) : Prop := ∀ r ∈ rs, r.1 ≤ e ∧ e ≤ r.2

/-- `checkEnergies`, gtcntsmap.cxx:198-209. -/
noncomputable def checkEnergies (rs : List (ℝ × ℝ)) (emin emax : ℝ) : Res PUnit :=
  open Classical in if accept rs emin ∧ accept rs emax then .ok ⟨⟩ else .throws

/-- The loop over the files, gtcntsmap.cxx:136-141. -/
def binFiles (project : Geom → ℝ × ℝ → ℝ × ℝ) (d : Disk) (m : Map) : List String → Res Map
  | [] => .ok m
  | f :: fs =>
    match d.events f "events" with
    | none => .throws
    | some t => do
      let m' ← binInput project m t
      binFiles project d m' fs

/-- The checks before anything is read: gtcntsmap.cxx:83, 92-97, with `checkOutputFile`,
AppHelpers.cxx:589-601, which ends the program. -/
def checks (d : Disk) (p : Pars) : Res PUnit :=
  if !p.clobber && p.outfile != "none" && d.present p.outfile then .throws
  else match p.files with
    | [] => .ok ⟨⟩
    | f :: fs => if fs.all (fun g => d.same p.evtable f g) then .ok ⟨⟩ else .throws

/-- The selected ranges of energy, gtcntsmap.cxx:99; the selections of the files agree. -/
def cutsOf (d : Disk) (p : Pars) : Res (List (ℝ × ℝ)) :=
  match p.files with
  | [] => .ub
  | f :: _ => match d.ranges f p.evtable with
    | none => .throws
    | some rs => .ok rs

/-- The sky coordinates, gtcntsmap.cxx:120-134. -/
noncomputable def geom (p : Pars) : Geom :=
  if p.lb then geomOf p.proj p.nra p.ndec p.glon p.glat p.sx p.sy 0 true
  else geomOf p.proj p.nra p.ndec p.ra p.dec p.sx p.sy 0 false

/-- `run`, gtcntsmap.cxx:81-146. -/
noncomputable def run (project : Geom → ℝ × ℝ → ℝ × ℝ) (d : Disk) (p : Pars) : Res File := do
  let _ ← checks d p
  let rs ← cutsOf d p
  let eb ← energies d p
  let lo ← vget eb.1 0
  let hi ← vget eb.2 (eb.2.length - 1)
  let _ ← checkEnergies rs lo hi
  let m ← make (geom p) "RA" "DEC" p.nra p.ndec (.pairs eb.1 eb.2)
  let m' ← binFiles project d m p.files
  writeOutput m'

end Verif.GtCnts
