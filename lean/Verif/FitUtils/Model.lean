import Verif.Basic
import Mathlib.Analysis.SpecialFunctions.Log.Basic
import Mathlib.Algebra.BigOperators.Group.Finset.Basic
/-
Model of the vector functions, the scan likelihood and the compression of empty
bins in `src/FitUtils.cxx`.  `float`/`double` are `ℝ`, `CLHEP::HepVector` is a list.
-/
open scoped BigOperators

namespace Verif.FitUtils

/-- `vectorAdd` with all three ranges given as whole vectors, FitUtils.cxx:265-289. -/
noncomputable def vectorAdd (v1 v2 out : List ℝ) (fact1 fact2 : ℝ) : Res (List ℝ) :=
  if v1.length ≠ v2.length ∨ v1.length ≠ out.length then .throws
  else .ok (List.zipWith (fun a b => fact1 * a + fact2 * b) v1 v2)

/-- `innerProduct` of two ranges, FitUtils.cxx:347-366. -/
noncomputable def innerProduct2 (a b : List ℝ) : Res ℝ :=
  if a.length ≠ b.length then .throws
  else .ok ((List.zipWith (· * ·) a b).foldl (· + ·) 0)

/-- `innerProduct` of three ranges, FitUtils.cxx:368-392. -/
noncomputable def innerProduct3 (a b c : List ℝ) : Res ℝ :=
  if a.length ≠ b.length ∨ a.length ≠ c.length then .throws
  else .ok ((List.zipWith (· * ·) (List.zipWith (· * ·) a b) c).foldl (· + ·) 0)

/-- `innerProduct` of four ranges, FitUtils.cxx:394-424. -/
noncomputable def innerProduct4 (a b c d : List ℝ) : Res ℝ :=
  if a.length ≠ b.length ∨ a.length ≠ c.length ∨ a.length ≠ d.length then .throws
  else .ok ((List.zipWith (· * ·) (List.zipWith (· * ·) (List.zipWith (· * ·) a b) c) d).foldl
    (· + ·) 0)

/-- Loop of `fracDiff`, FitUtils.cxx:443-453. -/
noncomputable def fracDiffLoop : List ℝ → List ℝ → Res (List ℝ)
  | d :: ds, m :: ms =>
    if d ≤ 0 then do
      let r ← fracDiffLoop ds ms
      .ok (1 :: r)
    else if m ≤ 0 then .throws
    else do
      let r ← fracDiffLoop ds ms
      .ok ((1 - d / m) :: r)
  | _, _ => .ok []

/-- `fracDiff`, FitUtils.cxx:426-454 (output range of the same size). -/
noncomputable def fracDiff (data model : List ℝ) : Res (List ℝ) :=
  if data.length ≠ model.length then .throws else fracDiffLoop data model

/-- Loop of `data_over_model2`, FitUtils.cxx:473-483. -/
noncomputable def dataOverModel2Loop : List ℝ → List ℝ → Res (List ℝ)
  | d :: ds, m :: ms =>
    if d ≤ 0 then do
      let r ← dataOverModel2Loop ds ms
      .ok (0 :: r)
    else if m ≤ 0 then .throws
    else do
      let r ← dataOverModel2Loop ds ms
      .ok ((d / (m * m)) :: r)
  | _, _ => .ok []

/-- `data_over_model2`, FitUtils.cxx:456-484. -/
noncomputable def dataOverModel2 (data model : List ℝ) : Res (List ℝ) :=
  if data.length ≠ model.length then .throws else dataOverModel2Loop data model

/-- The end of the bin range: `lastBin == 0 ? end : begin + lastBin`,
FitUtils.cxx:542, 544, 570, 572, 602. -/
def rangeStop (size lastBin : Nat) : Nat := if lastBin = 0 then size else lastBin

/-- One template's contribution, FitUtils.cxx:549-554. -/
noncomputable def addTemplate (first stop : Nat) (norm : ℝ) (tmpl total : List ℝ) : Res (List ℝ) :=
  loop (fun k t => do
    let x ← vget tmpl k
    let y ← vget t k
    vset t k (y + norm * x)) first (stop - first) total

/-- The loop over templates, FitUtils.cxx:548-555. -/
noncomputable def addTemplates (first stop : Nat) : List ℝ → List (List ℝ) → List ℝ → Res (List ℝ)
  | n :: ns, t :: ts, total => do
    let total' ← addTemplate first stop n t total
    addTemplates first stop ns ts total'
  | _, _, total => .ok total

/-- `sumModel`, FitUtils.cxx:523-556.  Iterators outside the vectors are
undefined. -/
noncomputable def sumModel (norms : List ℝ) (templates : List (List ℝ)) (fixed total : List ℝ)
    (firstBin lastBin : Nat) : Res (List ℝ) :=
  if fixed.length ≠ total.length then .throws
  else if templates.length ≠ norms.length then .throws
  else
    let stop := rangeStop total.length lastBin
    if stop < firstBin ∨ total.length < stop then .ub
    else do
      let total' ← loop (fun k t => do
        let x ← vget fixed k
        vset t k x) firstBin (stop - firstBin) total
      addTemplates firstBin stop norms templates total'

/-- Loop of the unweighted `logLikePoisson`, FitUtils.cxx:1805-1821. -/
noncomputable def llLoop : List ℝ → List ℝ → ℝ → ℝ → Res ℝ
  | d :: ds, m :: ms, nPred, logTerm =>
    if m < 0 then .throws
    else if (1e-9 : ℝ) < d then
      if m ≤ 0 then .throws
      else llLoop ds ms (nPred + m) (logTerm + d * Real.log m)
    else llLoop ds ms (nPred + m) logTerm
  | _, _, nPred, logTerm => .ok (logTerm - nPred)

/-- Unweighted `logLikePoisson`, FitUtils.cxx:1790-1822. -/
noncomputable def logLikePoisson (data model : List ℝ) : Res ℝ :=
  if data.length ≠ model.length then .throws else llLoop data model 0 0

/-- Loop of the weighted `logLikePoisson`, FitUtils.cxx:1847-1864. -/
noncomputable def llLoopW : List ℝ → List ℝ → List ℝ → ℝ → ℝ → Res ℝ
  | d :: ds, m :: ms, w :: ws, nPred, logTerm =>
    if m < 0 then .throws
    else if (1e-9 : ℝ) < d * w then
      if m ≤ 0 then .throws
      else llLoopW ds ms ws (nPred + m * w) (logTerm + d * w * Real.log m)
    else llLoopW ds ms ws (nPred + m * w) logTerm
  | _, _, _, nPred, logTerm => .ok (logTerm - nPred)

/-- Weighted `logLikePoisson`, FitUtils.cxx:1824-1865. -/
noncomputable def logLikePoissonW (data model weights : List ℝ) : Res ℝ :=
  if data.length ≠ model.length then .throws
  else if data.length ≠ weights.length then .throws
  else llLoopW data model weights 0 0

/-- The sub-range `[first, stop)` of a vector, as given by a pair of iterators;
undefined outside the vector. -/
def slice (l : List ℝ) (first stop : Nat) : Res (List ℝ) :=
  if stop < first ∨ l.length < stop then .ub else .ok ((l.drop first).take (stop - first))

/-- A multivariate Gaussian prior on the normalisations, `FitScanMVPrior`
(FitScanner.cxx:223-260): central values and the (symmetric) Hessian. -/
structure MVPrior where
  central : List ℝ
  hessian : List (List ℝ)

/-- Element of a vector; only used inside its size. -/
def val (l : List ℝ) (k : Nat) : ℝ := l[k]?.getD 0

/-- Element of a matrix stored by rows. -/
def mat (m : List (List ℝ)) (i j : Nat) : ℝ := val (m[i]?.getD []) j

/-- `FitScanMVPrior::logLikelihood`, FitScanner.cxx:223-227: `-½ δᵀ H δ`. -/
noncomputable def MVPrior.logLikelihood (p : MVPrior) (norms : List ℝ) : ℝ :=
  -(1 / 2) * ∑ a ∈ Finset.range norms.length, ∑ b ∈ Finset.range norms.length,
    (val norms a - val p.central a) * mat p.hessian a b * (val norms b - val p.central b)

/-- `FitScanMVPrior::gradient`, FitScanner.cxx:229-233: `H δ`. -/
noncomputable def MVPrior.gradient (p : MVPrior) (norms : List ℝ) (i : Nat) : ℝ :=
  ∑ b ∈ Finset.range norms.length, mat p.hessian i b * (val norms b - val p.central b)

/-- `getLogLikelihood`, FitUtils.cxx:558-586.  The ranges into `model` have the
size of the scratch vector `model0`, which `sumModel` overwrites. -/
noncomputable def getLogLikelihood (data norms : List ℝ) (templates : List (List ℝ))
    (fixed : List ℝ) (prior : Option MVPrior) (weights : Option (List ℝ)) (model0 : List ℝ)
    (firstBin lastBin : Nat) : Res ℝ := do
  let d ← slice data firstBin (rangeStop data.length lastBin)
  let model ← sumModel norms templates fixed model0 firstBin lastBin
  let m ← slice model firstBin (rangeStop model.length lastBin)
  let ll ← match weights with
    | none => logLikePoisson d m
    | some w => do
      let ws ← slice w firstBin (rangeStop w.length lastBin)
      logLikePoissonW d m ws
  match prior with
  | none => .ok ll
  | some p => .ok (ll + p.logLikelihood norms)

/-- One gradient element before the prior, FitUtils.cxx:620-633. -/
noncomputable def gradElem (weights : Option (List ℝ)) (first stop : Nat) (fdiff tmpl : List ℝ) :
    Res ℝ := do
  let t ← slice tmpl first stop
  match weights with
  | some w => do
    let ws ← slice w first stop
    innerProduct3 ws fdiff t
  | none => innerProduct2 fdiff t

/-- One Hessian element before the prior, FitUtils.cxx:637-652. -/
noncomputable def hessElem (weights : Option (List ℝ)) (first stop : Nat) (w2 ti tj : List ℝ) :
    Res ℝ := do
  let a ← slice ti first stop
  let b ← slice tj first stop
  match weights with
  | some w => do
    let ws ← slice w first stop
    innerProduct4 ws w2 a b
  | none => innerProduct3 w2 a b

/-- `getGradientAndHessian`, FitUtils.cxx:588-665: the `i`-th gradient element. -/
noncomputable def gradientAt (data norms : List ℝ) (templates : List (List ℝ)) (fixed : List ℝ)
    (prior : Option MVPrior) (weights : Option (List ℝ)) (model0 : List ℝ)
    (firstBin lastBin : Nat) (i : Nat) : Res ℝ := do
  let stop := rangeStop data.length lastBin
  let model ← sumModel norms templates fixed model0 firstBin lastBin
  let d ← slice data firstBin stop
  let m ← slice model firstBin stop
  let fdiff ← fracDiff d m
  let _ ← dataOverModel2 d m
  let ti ← vget templates i
  let g ← gradElem weights firstBin stop fdiff ti
  match prior with
  | none => .ok g
  | some p => .ok (g + p.gradient norms i)

/-- `getGradientAndHessian`, FitUtils.cxx:588-665: the Hessian element `(i,j)`,
`i ≤ j` (the matrix is symmetric; only that half is written). -/
noncomputable def hessianAt (data norms : List ℝ) (templates : List (List ℝ)) (fixed : List ℝ)
    (prior : Option MVPrior) (weights : Option (List ℝ)) (model0 : List ℝ)
    (firstBin lastBin : Nat) (i j : Nat) : Res ℝ := do
  let stop := rangeStop data.length lastBin
  let model ← sumModel norms templates fixed model0 firstBin lastBin
  let d ← slice data firstBin stop
  let m ← slice model firstBin stop
  let _ ← fracDiff d m
  let w2 ← dataOverModel2 d m
  let ti ← vget templates i
  let tj ← vget templates j
  let h ← hessElem weights firstBin stop w2 ti tj
  match prior with
  | none => .ok h
  | some p => .ok (h + mat p.hessian i j)

/-- Loop of `refactorModels`, FitUtils.cxx:1594-1605, from template `i` on. -/
noncomputable def refactorLoop (scales : List ℝ) : Nat → List (List ℝ) → List Bool →
    List (List ℝ) × List ℝ × List ℝ → Res (List (List ℝ) × List ℝ × List ℝ)
  | i, t :: ts, f :: fs, (tout, fixed, sout) => do
    let s ← vget scales i
    if f then refactorLoop scales (i + 1) ts fs (tout ++ [t], fixed, sout ++ [s])
    else do
      let fixed' ← vectorAdd fixed t fixed 1 s
      refactorLoop scales (i + 1) ts fs (tout, fixed', sout)
  | _, _, _, st => .ok st

/-- `refactorModels`, FitUtils.cxx:1572-1612: templates, fixed part and scale
factors after moving the non-free templates into the fixed part. -/
noncomputable def refactorModels (templates : List (List ℝ)) (fixed scales : List ℝ)
    (freePars : List Bool) (test : Option (List ℝ)) :
    Res (List (List ℝ) × List ℝ × List ℝ) :=
  if templates.length ≠ freePars.length then .throws
  else do
    let (tout, fixed', sout) ← refactorLoop scales 0 templates freePars ([], fixed, [])
    match test with
    | none => .ok (tout, fixed', sout)
    | some t => .ok (tout ++ [t], fixed', sout ++ [0])

/-! ### Compression of empty bins -/

/-- Output of `extractNonZeroBins`. -/
structure Extract where
  /-- `nonZeroBins` -/
  nonZero : List Int
  /-- `dataRed` -/
  dataRed : List ℝ
  /-- `energyBinStopIdxs` -/
  stops : List Nat

/-- Loop body of `extractNonZeroBins`, FitUtils.cxx:1626-1638: bin `i` with content
`d`; `isEnd` says that bin `i` is the last of its energy layer. -/
noncomputable def extractBody (i : Nat) (d : ℝ) (isEnd : Bool) (e : Extract) : Extract :=
  let e := if (1e-15 : ℝ) < d
    then { e with nonZero := e.nonZero ++ [(i : Int)], dataRed := e.dataRed ++ [d] } else e
  if isEnd then
    { nonZero := e.nonZero ++ [-((i : Int) + 1)], dataRed := e.dataRed ++ [0],
      stops := e.stops ++ [e.dataRed.length + 1] }
  else e

/-- The loop over the bins from `i` on. -/
noncomputable def extractLoop (isEnd : Nat → Bool) : Nat → List ℝ → Extract → Extract
  | _, [], e => e
  | i, d :: ds, e => extractLoop isEnd (i + 1) ds (extractBody i d (isEnd i) e)

/-- `extractNonZeroBins` with a fixed number of pixels per layer,
FitUtils.cxx:1614-1639.  `% 0` is undefined. -/
noncomputable def extractNonZeroBins (data : List ℝ) (npix : Nat) : Res Extract :=
  if npix = 0 ∧ data ≠ [] then .ub
  else .ok (extractLoop (fun i => (i + 1) % npix = 0) 0 data ⟨[], [], []⟩)

/-- State of the loop of the second `extractNonZeroBins`: layer counter and
outputs. -/
noncomputable def extractLayersLoop (firstPix : List Nat) : Nat → Nat → List ℝ → Extract →
    Res Extract
  | _, _, [], e => .ok e
  | i, ilayer, d :: ds, e => do
    let f ← vget firstPix ilayer
    if i + 1 = f then extractLayersLoop firstPix (i + 1) (ilayer + 1) ds (extractBody i d true e)
    else extractLayersLoop firstPix (i + 1) ilayer ds (extractBody i d false e)

/-- `extractNonZeroBins` with explicit layer boundaries, FitUtils.cxx:1642-1669;
`firstPixByLayer[ilayer]` is read for every bin. -/
noncomputable def extractNonZeroBinsByLayer (data : List ℝ) (firstPix : List Nat) : Res Extract :=
  extractLayersLoop firstPix 0 1 data ⟨[], [], []⟩

/-- State of the loop of `sparsifyModel`: `i`, `zeroCountSum`, `modelRed`. -/
structure SparsifyState where
  i : Nat
  zero : ℝ
  out : List ℝ

/-- Loop body of `sparsifyModel`, FitUtils.cxx:1686-1709. -/
noncomputable def sparsifyBody (model : List ℝ) (b : Int) (s : SparsifyState) :
    Res SparsifyState := do
  let next := b.natAbs
  let z ← loop (fun k z => do
    let x ← vget model k
    .ok (z + x)) s.i (next - s.i) s.zero
  let i := max s.i next
  if b < 0 then .ok ⟨i, 0, s.out ++ [z]⟩
  else do
    let x ← vget model i
    .ok ⟨i + 1, z, s.out ++ [x]⟩

/-- The loop over `nonZeroBins`. -/
noncomputable def sparsifyLoop (model : List ℝ) : List Int → SparsifyState → Res SparsifyState
  | [], s => .ok s
  | b :: bs, s => do
    let s' ← sparsifyBody model b s
    sparsifyLoop model bs s'

/-- `sparsifyModel`, FitUtils.cxx:1671-1720. -/
noncomputable def sparsifyModel (nonZero : List Int) (model : List ℝ) : Res (List ℝ) := do
  let s ← sparsifyLoop model nonZero ⟨0, 0, []⟩
  .ok s.out

/-- State of the loop of `sparsifyWeights`. -/
structure SparsifyWState where
  i : Nat
  zw : ℝ
  zm : ℝ
  out : List ℝ

/-- Loop body of `sparsifyWeights`, FitUtils.cxx:1739-1765. -/
noncomputable def sparsifyWBody (weights model : List ℝ) (b : Int) (s : SparsifyWState) :
    Res SparsifyWState := do
  let next := b.natAbs
  let z ← loop (fun k (z : ℝ × ℝ) => do
    let w ← vget weights k
    let x ← vget model k
    .ok (z.1 + w * x, z.2 + x)) s.i (next - s.i) (s.zw, s.zm)
  let i := max s.i next
  if b < 0 then
    let zc := if 0 < z.2 then z.1 / z.2 else 1
    .ok ⟨i, 0, 0, s.out ++ [zc]⟩
  else do
    let x ← vget weights i
    .ok ⟨i + 1, z.1, z.2, s.out ++ [x]⟩

/-- The loop over `nonZeroBins`. -/
noncomputable def sparsifyWLoop (weights model : List ℝ) : List Int → SparsifyWState →
    Res SparsifyWState
  | [], s => .ok s
  | b :: bs, s => do
    let s' ← sparsifyWBody weights model b s
    sparsifyWLoop weights model bs s'

/-- `sparsifyWeights`, FitUtils.cxx:1722-1787. -/
noncomputable def sparsifyWeights (nonZero : List Int) (weights model : List ℝ) :
    Res (List ℝ) := do
  let s ← sparsifyWLoop weights model nonZero ⟨0, 0, 0, []⟩
  .ok s.out

end Verif.FitUtils
