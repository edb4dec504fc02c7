import Verif.BackFile.Types
import Mathlib.Analysis.SpecialFunctions.Sqrt
/-
Model of gtbkg (src/backfile/backfile.cxx).
-/
namespace Verif.BackFile

/-- `getEbounds`: backfile.cxx:199-218, from keV to MeV. -/
noncomputable def getEbounds (p : Pha) : List (ℝ × ℝ) := p.ebounds.map (fun b => (b.1 / 1e3, b.2 / 1e3))

/-- The counts of the other sources: backfile.cxx:157-163. -/
def counts (target : Name) (lo hi : ℝ) : List Src → ℝ → Res ℝ
  | [], c => .ok c
  | s :: ss, c =>
    if s.name ≠ target then do
      let x ← s.npred lo hi
      counts target lo hi ss (c + x)
    else counts target lo hi ss c

/-- The terms of one source: backfile.cxx:188-194. -/
def variancePars (lo hi : ℝ) : List Par → ℝ → Res ℝ
  | [], v => .ok v
  | p :: ps, v => do
    let d ← p.deriv lo hi
    variancePars lo hi ps (v + d * d * p.error * p.error)

/-- The variance: backfile.cxx:180-195. -/
def variance (target : Name) (lo hi : ℝ) : List Src → ℝ → Res ℝ
  | [], v => .ok v
  | s :: ss, v =>
    if s.name = target then variance target lo hi ss v
    else do
      let v' ← variancePars lo hi s.pars v
      variance target lo hi ss v'

/-- `NpredError`: backfile.cxx:176-197. -/
noncomputable def npredError (target : Name) (lo hi : ℝ) (ss : List Src) : Res ℝ := do
  let v ← variance target lo hi ss 0
  .ok (Real.sqrt v)

/-- `a/b`; undefined for zero. -/
noncomputable def over (a b : ℝ) : Res ℝ := open Classical in if b = 0 then .ub else .ok (a / b)

/-- One bin: backfile.cxx:155-166. -/
noncomputable def rate (i : In) (front back exposure : ℝ) (b : ℝ × ℝ) : Res (ℝ × ℝ) := do
  let lo := max b.1 front
  let hi := min b.2 back
  let c ← counts i.target lo hi i.srcs 0
  let r ← over c exposure
  let e ← npredError i.target lo hi i.srcs
  let s ← over e exposure
  .ok (r, s)

/-- The loop over the bins: backfile.cxx:152-167. -/
noncomputable def rates (i : In) (front back exposure : ℝ) : List (ℝ × ℝ) → Res (List (ℝ × ℝ))
  | [] => .ok []
  | b :: bs => do
    let r ← rate i front back exposure b
    let rs ← rates i front back exposure bs
    .ok (r :: rs)

/-- `front()`, `back()` of the energies (undefined if there are none) and the keyword: backfile.cxx:
142-150. -/
noncomputable def allRates (i : In) : Res (List (ℝ × ℝ)) :=
  match i.pha.exposure with
  | none => .throws
  | some t =>
    match getEbounds i.pha, i.energies.head?, i.energies.getLast? with
    | [], _, _ => .ok []
    | bs, some f, some b => rates i f b t bs
    | _, _, _ => .ub

/-- `writeBackFile`: backfile.cxx:230-242, row by row; `at(i)` throws beyond the last rate. -/
def writeRows : List (ℝ × ℝ) → List (ℝ × ℝ) → List (ℝ × ℝ) × Res Unit
  | [], _ => ([], .ok ())
  | rs, [] => (rs, .throws)
  | _ :: rows, r :: rs =>
    let w := writeRows rows rs
    (r :: w.1, w.2)

/-- The way a call that failed ends. -/
def failed : Res α → Res Unit
  | .ok _ => .ok ()
  | .throws => .throws
  | .ub => .ub

/-- `BackFile::run` after `setup`: backfile.cxx:107-174.  The output starts as a copy of the
input. -/
noncomputable def run (i : In) : Out :=
  match allRates i with
  | .ok rs =>
    let w := writeRows i.pha.rows rs
    let out := { i.pha with column := "RATE".toList, rows := w.1 }
    match w.2 with
    | .ok _ => ⟨{ i.pha with backfile := some i.outName }, some out, .ok ()⟩
    | r => ⟨i.pha, some out, r⟩
  | r => ⟨i.pha, some i.pha, failed r⟩

end Verif.BackFile
