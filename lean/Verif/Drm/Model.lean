import Verif.Edisp.Model
import Mathlib.Analysis.SpecialFunctions.Log.Basic
import Mathlib.Analysis.SpecialFunctions.Exp
/-
Model of `src/Drm.cxx`: the detector response matrix and the per-source cache of true
and measured counts.  The instrument response itself (`matrix_element`) is not modelled:
the matrix is an arbitrary table, as for the constructor that is given the values.
-/
namespace Verif.Drm

open Verif.Vec Verif.Edisp

/-- `Drm` as left by its constructors. -/
structure Rsp where
  nmeas : Nat
  bins : Nat
  /-- `m_drm[k][kp]`: one row per true-energy bin -/
  rows : List (List ℝ)
  logRatioLo : ℝ
  diffRatioLo : ℝ
  logRatioHi : ℝ
  diffRatioHi : ℝ

/-- `m_ntrue`. -/
def Rsp.ntrue (d : Rsp) : Nat := d.nmeas + 2 * d.bins

/-- Constructors, Drm.cxx:44-111.  An empty energy vector (`size() - 1` wraps) and a
single energy (reads `m_energies[1]`) are undefined behaviour. -/
noncomputable def mkDrm (energies : List ℝ) (bins : Nat) (rows : List (List ℝ)) : Res Rsp :=
  let nee := energies.length - 1
  if 2 ≤ nee then do
    let e0 ← vget energies 0
    let e1 ← vget energies 1
    let e2 ← vget energies 2
    let en ← vget energies nee
    let em ← vget energies (nee - 1)
    let el ← vget energies (nee - 2)
    .ok ⟨nee, bins, rows, Real.log (e0 / e2) / Real.log (e1 / e2), (e0 - e2) / (e1 - e2),
      Real.log (en / el) / Real.log (em / el), (en - el) / (em - el)⟩
  else do
    let e0 ← vget energies 0
    let e1 ← vget energies 1
    .ok ⟨nee, bins, rows, Real.log (e0 / e1), e0 / e1, Real.log (e1 / e0), e1 / e0⟩

/-- `extrapolate_lo(c0, c1)`, Drm.cxx:271-284. -/
noncomputable def extrapolateLo (d : Rsp) (c0 c1 : ℝ) : ℝ :=
  if c0 > 1e-4 ∧ c1 > 1e-4 then c1 * Real.exp (d.logRatioLo * Real.log (c0 / c1))
  else d.diffRatioLo * (c0 - c1) + c1

/-- `extrapolate_hi(c0, c1)`, Drm.cxx:293-307. -/
noncomputable def extrapolateHi (d : Rsp) (c0 c1 : ℝ) : ℝ :=
  if c1 > 1e-10 ∧ c0 > 1e-10 then c0 * Real.exp (d.logRatioHi * Real.log (c1 / c0))
  else d.diffRatioHi * (c1 - c0) + c0

/-- One pass of the extension loop, Drm.cxx:130-136 (the deque is a list; reading
`counts[1]` of a one-element deque, or `counts[size()-2]`, is undefined behaviour). -/
noncomputable def extendStep (d : Rsp) (c : List ℝ) : Res (List ℝ) := do
  let c0 ← vget c 0
  let c1 ← vget c 1
  let c := extrapolateLo d c0 c1 :: c
  let a ← vget c (c.length - 2)
  let b ← vget c (c.length - 1)
  .ok (c ++ [extrapolateHi d a b])

/-- `Drm::convolve`, Drm.cxx:115-144. -/
noncomputable def convolve (d : Rsp) (trueCounts : List ℝ) : Res (List ℝ) :=
  if trueCounts.length ≠ d.nmeas then .throws
  else do
    let counts ← loop (fun _ c => extendStep d c) 0 d.bins trueCounts
    (List.range d.nmeas).mapM (fun kp =>
      loop (fun k acc => do
        let c ← vget counts k
        let row ← vget d.rows k
        let m ← vget row kp
        .ok (acc + c * m)) 0 d.ntrue 0)

/-- `compute_transpose`, Drm.cxx:174-182: the columns used by the full method. -/
noncomputable def transpose (d : Rsp) : Res (List (List ℝ)) :=
  (List.range d.nmeas).mapM (fun kp => (List.range d.ntrue).mapM (fun k => do
    let row ← vget d.rows k
    vget row kp))

/-- `Drm_Cache` members, Drm.h:215-231. -/
structure Cache where
  trueC : List ℝ
  measC : List ℝ
  xi : List ℝ
  kref : List Int
  trueWt : List ℝ
  measWt : List ℝ

/-- First loop of `Drm_Cache::update`, Drm.cxx:357-380, body for bin `k`: true counts and
measured counts (each plain and weighted). -/
noncomputable def countsOfBin (s : SrcMap ℝ) (np : List ℝ) (wn : List (List (ℝ × ℝ))) (k : Nat) :
    Res ((ℝ × ℝ) × (ℝ × ℝ)) := do
  let row ← vat wn k
  let r0 ← vat row 0
  let t ← npredContribution np r0 s.specWts 1 (k + s.eb)
  if 0 < s.ev then do
    let (kmin, kmax, col) ← getEdispConstants s k
    let m ← npredEdisp np row s.specWts col kmin kmax
    .ok (t, m)
  else .ok (t, t)

/-- State of the last loop of `update`. -/
structure XiState where
  kref : Int
  xi : List ℝ
  krefs : List Int
  measWt : List ℝ

/-- The choice of `xi[k]`, `m_kref[k]` and the running reference, Drm.cxx:405-424. -/
noncomputable def xiChoice (trueC measC : List ℝ) (kref : Int) (k : Nat) : Res (ℝ × Int × Int) := do
  let t ← vget trueC k
  let m ← vget measC k
  if 0 < t then .ok (m / t, -1, (k : Int))
  else if 0 ≤ kref then do
    let r ← vget trueC kref.toNat
    .ok (m / r, kref, kref)
  else .ok (1, -1, kref)

/-- Body of the last loop of `update`, Drm.cxx:404-434; `m_true_counts_wt[kref]` with
`kref = -1` is undefined behaviour. -/
noncomputable def xiStep (s : SrcMap ℝ) (trueC measC trueWt : List ℝ) (k : Nat) (st : XiState) :
    Res XiState := do
  let (x, kr, kref) ← xiChoice trueC measC st.kref k
  if s.ev < 0 then do
    let i ← asIndex kref
    let w ← vget trueWt i
    let mw ← vset st.measWt k (x * w)
    .ok ⟨kref, st.xi ++ [x], st.krefs ++ [kr], mw⟩
  else .ok ⟨kref, st.xi ++ [x], st.krefs ++ [kr], st.measWt⟩

/-- Measured counts: convolved true counts in the rescaling method, Drm.cxx:382-384. -/
noncomputable def measured (ev : Int) (d : Rsp) (trueC meas : List ℝ) : Res (List ℝ) :=
  if ev < 0 then convolve d trueC else .ok meas

/-- `Drm_Cache::update`, Drm.cxx:332-436, given the npred arrays of the map (the spectral
weights are taken as already up to date).  The `xi`/`kref` vectors, overwritten element
by element in the C++, are built by appending. -/
noncomputable def updateCache (s : SrcMap ℝ) (d : Rsp) (np : List ℝ) (wn : List (List (ℝ × ℝ))) :
    Res Cache := do
  let rows ← (List.range d.nmeas).mapM (countsOfBin s np wn)
  let trueC := rows.map (fun r => r.1.1)
  let trueWt := rows.map (fun r => r.1.2)
  let meas ← measured s.ev d trueC (rows.map (fun r => r.2.1))
  let measC := meas.map (fun x => if x < 0 then 0 else x)
  let st ← loop (xiStep s trueC measC trueWt) 0 d.nmeas
    ⟨-1, [], [], rows.map (fun r => r.2.2)⟩
  .ok ⟨trueC, measC, st.xi, st.krefs, trueWt, st.measWt⟩

/-- `SourceMap::counts_spectra` and `summed_counts`, SourceMap.cxx:423-430, 535-550. -/
noncomputable def summedCounts (c : Cache) (kmin kmax : Nat) (ev : Int) (weighted : Bool) : Res ℝ :=
  let v := if weighted then (if ev = 0 then c.trueWt else c.measWt)
    else (if ev = 0 then c.trueC else c.measC)
  loop (fun k acc => do
    let x ← vget v k
    .ok (acc + x)) kmin (kmax - kmin) 0

/-- The map after its cache has been updated. -/
noncomputable def withCache (s : SrcMap ℝ) (c : Cache) : SrcMap ℝ :=
  { s with xi := c.xi, kref := c.kref }

end Verif.Drm
