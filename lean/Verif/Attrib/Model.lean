import Verif.Binned.Model
/-
Model of `BinnedLikelihood::countsSpectrum(srcName, use_klims)`: the observed counts a source
accounts for, by energy bin.  On top of the model of the likelihood object (`Verif.Binned`).
-/
namespace Verif.Attrib
open Verif.Vec Verif.Binned
open Verif.StdMap (find)

variable {ν : Type} [LinearOrder ν]

/-- The quotient of BinnedLikelihood.cxx:960; not a number, or infinite, if the model is zero
there: reported as undefined. -/
noncomputable def share (c m : ℝ) : Res ℝ := open Classical in if m = 0 then .ub else .ok (c / m)

/-- The counts of bin `k`: BinnedLikelihood.cxx:956-963. -/
noncomputable def binCounts (e : Env) (raw model mc : List ℝ) (k : Nat) : Res ℝ := do
  let a ← vget e.first k
  let b ← vget e.first (k + 1)
  loop (fun j acc => do
    let c ← vget mc j
    let m ← vget model j
    let q ← share c m
    let ipix ← vget e.filled j
    let d ← vget raw (k * e.npix + ipix)
    .ok (acc + q * d)) a (b - a) 0

/-- The loop over the bins: BinnedLikelihood.cxx:955-964 (the elements of the result are written
one after the other). -/
noncomputable def bins (e : Env) (raw model mc : List ℝ) (kmin kmax : Nat) : Res (List ℝ) :=
  loop (fun k v => do
    let x ← binCounts e raw model mc k
    .ok (v ++ [x])) kmin (kmax - kmin) []

/-- The model is computed if it is flagged as out of date: BinnedLikelihood.cxx:948-950. -/
noncomputable def fresh (e : Env) (st : St ν) : Res (St ν × ℝ) :=
  if st.current then .ok (st, 0) else computeModel e false st

/-- The counts of the source: BinnedLikelihood.cxx:951-952; nothing is added for an unknown name
(1026-1029). -/
noncomputable def sourceCounts (e : Env) (st : St ν) (n : ν) : Res (St ν × List ℝ) :=
  match find st.srcs n with
  | none => .ok (st, List.replicate e.filled.length 0)
  | some σ => do
    let (st, _, mc) ← addCounts e st (List.replicate e.filled.length 0) n σ false false
    .ok (st, mc)

/-- The selected bins: BinnedLikelihood.cxx:938-943. -/
def limits (e : Env) (st : St ν) (useKlims : Bool) : Nat × Nat :=
  if useKlims then (st.kmin, st.kmax) else (0, e.nebins)

/-- `countsSpectrum`: BinnedLikelihood.cxx:935-966.  `raw` are the counts, `m_dataCache.data()`.
The size of a vector for `kmax < kmin` wraps around, which throws. -/
noncomputable def countsSpectrum (e : Env) (raw : List ℝ) (st : St ν) (n : ν) (useKlims : Bool) :
    Res (St ν × List ℝ) :=
  let l := limits e st useKlims
  if l.2 < l.1 then .throws
  else do
    let (st, _) ← fresh e st
    let (st, mc) ← sourceCounts e st n
    let v ← bins e raw st.model mc l.1 l.2
    .ok (st, v)

/-- The spectra of several sources, one call after the other. -/
noncomputable def spectra (e : Env) (raw : List ℝ) (useKlims : Bool) :
    List ν → St ν → Res (St ν × List (List ℝ))
  | [], st => .ok (st, [])
  | n :: ns, st => do
    let (st, v) ← countsSpectrum e raw st n useKlims
    let (st, vs) ← spectra e raw useKlims ns st
    .ok (st, v :: vs)

end Verif.Attrib
