import Verif.StScan.Types
/-
Model of src/ScanUtils.cxx and of `set_klims` in src/FitScanner.cxx.
-/
namespace Verif.StScan

/-! ### Free parameters -/

/-- `freezeSourceParams`, ScanUtils.cxx:28-36. -/
def freezeSource (s : Flags) : Flags := { s with free := s.free.map (fun _ => false) }

/-- `freezeAllParams`, ScanUtils.cxx:38-45. -/
def freezeAll {ν : Type} (m : List (ν × Flags)) : List (ν × Flags) := m.map (fun x => (x.1, freezeSource x.2))

/-- `freeNormalizations`, ScanUtils.cxx:47-56; an unknown source is a null pointer (SourceModel.cxx:230-235). -/
def freeNorms {ν : Type} [DecidableEq ν] (free : Bool) : List ν → List (ν × Flags) → Res (List (ν × Flags))
  | [], m => .ok m
  | n :: ns, m =>
    if n ∈ m.map (·.1) then
      freeNorms free ns (m.map (fun x => if x.1 = n then (x.1, { x.2 with free := x.2.free.set x.2.norm free }) else x))
    else .ub

/-! ### Energy ranges -/

/-- The range of one component of a sum, FitScanner.cxx:908-914; both limits are read at `kmin`. -/
def localRange (bins : List (List Int)) (kmin i : Nat) : Res (Nat × Nat) := do
  let row ← vget bins kmin
  let a ← vget row i
  let row' ← vget bins kmin
  let b ← vget row' i
  if a < 0 ∨ b < 0 then .ok (0, 0) else .ok (a.toNat, b.toNat)

/-- `set_klims`, FitScanner.cxx:580-582 and 904-916 (the components are binned likelihoods). -/
def setKlims (w : Like) (kmin kmax : Nat) (st : St) : Res St :=
  match w with
  | .single => .ok ⟨st.pars, [(kmin, kmax)]⟩
  | .summed bins n => do
    let r ← (List.range n).mapM (fun i => localRange bins kmin i)
    .ok ⟨st.pars, r⟩

/-! ### The scan -/

/-- `setFree` of one parameter. -/
def setFree (ps : List Par) (i : Nat) (b : Bool) : List Par := ps.modify i (fun p => { p with free := b })

/-- `setValue` of one parameter: an exception outside its bounds. -/
noncomputable def setValue (ps : List Par) (i : Nat) (x : ℝ) : Option (List Par) :=
  match ps[i]? with
  | none => none
  | some p => open Classical in if p.lo ≤ x ∧ x ≤ p.hi then some (ps.set i { p with value := x }) else none

/-- The loop over parameters, ScanUtils.cxx:104-110: the number of free ones.  The errors are set in copies of the parameters and are not
modelled. -/
def countFree (unc : List ℝ) : List Par → Nat → Res Nat
  | [], n => .ok n
  | p :: ps, n =>
    if p.free then do
      let _ ← vget unc n
      countFree unc ps (n + 1)
    else countFree unc ps n

/-- The loop over normalizations, ScanUtils.cxx:138-154: the state, and the log likelihoods unless there is an exception. -/
noncomputable def points (f : Fitter) (nfree i : Nat) : List ℝ → St → St × Option (List ℝ)
  | [], st => (st, some [])
  | x :: xs, st =>
    match setValue st.pars i x with
    | none => (st, none)
    | some ps =>
      let qs := if 1 < nfree then f.reminimize st.klims ps else ps
      let r := points f nfree i xs ⟨qs, st.klims⟩
      (r.1, r.2.map (fun l => f.value st.klims (qs.map (·.value)) :: l))

/-- The normalizations, ScanUtils.cxx:121-129; `n - 1` is not negative where it matters, and the rounding of single precision is left out. -/
noncomputable def norms (mle err : ℝ) (n : Nat) : List ℝ :=
  let lo := max 1e-10 (mle - 10 * err)
  let hi := max 2.5 (mle + 10 * err)
  (List.range n).map (fun j : Nat => lo + j * ((hi - lo) / ((n : ℝ) - 1)))

/-- `scan_norm_binned`, ScanUtils.cxx:71-158; the parameter `i` is the normalization of the source to scan, a source that does not
exist is a null pointer.  The codes of the fits are not looked at. -/
noncomputable def scanNorm (w : Like) (f : Fitter) (i kmin kmax n : Nat) (st : St) : Res (Out Scan) := do
  let st ← setKlims w kmin kmax st
  let _ ← vget st.pars i
  let m := f.minimize st.klims (setFree st.pars i true)
  let nfree ← countFree m.2 m.1 0
  let p ← vget m.1 i
  let err ← vget m.2 0
  let ns := norms p.value err n
  match points f nfree i ns ⟨setFree m.1 i false, st.klims⟩ with
  | (s, none) => .ok (.thrown s)
  | (s, some ls) => .ok (.done ⟨setFree s.pars i true, s.klims⟩ ⟨ns, p.value, f.value st.klims (m.1.map (·.value)), ls⟩)

/-- The loop over energy bins, ScanUtils.cxx:177-184, from bin `k` on. -/
noncomputable def bins (w : Like) (f : Fitter) (i n : Nat) : Nat → Nat → St → Res (Out (List Scan))
  | 0, _, st => .ok (.done st [])
  | m + 1, k, st => do
    let r ← scanNorm w f i k (k + 1) n st
    match r with
    | .thrown s => .ok (.thrown s)
    | .done s a => do
      let r' ← bins w f i n m (k + 1) s
      match r' with
      | .thrown s => .ok (.thrown s)
      | .done s' as => .ok (.done s' (a :: as))

/-- `sed_binned`, ScanUtils.cxx:160-189, for `nE` energy bins. -/
noncomputable def sedBinned (w : Like) (f : Fitter) (i n nE : Nat) (st : St) : Res (Out (List Scan)) := do
  let r ← bins w f i n nE 0 st
  match r with
  | .thrown s => .ok (.thrown s)
  | .done s as => do
    let s' ← setKlims w 0 (nE + 1) s
    .ok (.done s' as)

end Verif.StScan
