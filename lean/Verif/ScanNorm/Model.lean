import Verif.ScanNorm.Types
import Verif.Newton.Model
import Mathlib.Analysis.SpecialFunctions.Sqrt
/-
Model of the scan of the normalization of a test source, and of its errors: `FitScanCache::scanNormalization` and
`signalUncertainty_quad` in src/FitScanner.cxx.  Single and double precision numbers are real numbers; the linear
algebra of fits is arbitrary, as in `Verif.Newton`.
-/
namespace Verif.ScanNorm
open FitUtils Newton

/-- The quadratic equation, FitScanner.cxx:1553-1575: `x` is the present value, `b` the gradient, `v` the variance, `old`
are the errors before the call.  Without curvature the code is a number converted to an integer (any number here,
and undefined for a division by zero), and the errors are not written. -/
noncomputable def solve (trunc : ℝ → Int) (x b v delta : ℝ) (old : Errors) : Res (Int × Errors) :=
  open Classical in
  if |v| < 1e-10 then (if b = 0 then .ub else .ok (trunc (delta / b), old))
  else
    let a := 1 / v
    let det := b * b + 4 * a * delta
    if det < 0 then .ok (-2, ⟨-1, -1⟩)
    else
      let neg := (b + Real.sqrt det) / (2 * a)
      .ok (0, ⟨(-b + Real.sqrt det) / (2 * a), if x < neg then -1 else neg⟩)

/-- `signalUncertainty_quad`, FitScanner.cxx:1542-1576: return code and errors.  An index outside gradient and
parameters is undefined. -/
noncomputable def signalUncertainty (trunc : ℝ → Int) (c : Cache) (delta : ℝ) (old : Errors) : Res (Int × Errors) :=
  match c.test with
  | none => .ok (-1, ⟨-1, -1⟩)
  | some i => do
    let b ← vget c.grad i
    let x ← vget c.pars i
    solve trunc x b (c.cov i i) delta old

/-- First normalization, FitScanner.cxx:1453. -/
noncomputable def scanMin (mle sigma neg : ℝ) : ℝ := open Classical in if neg < 0 then 1e-10 else max 1e-10 (mle - sigma * neg)

/-- Last normalization, FitScanner.cxx:1454. -/
noncomputable def scanMax (mle sigma pos : ℝ) : ℝ := open Classical in if pos < 0 then 2.5e-4 else max 2.5e-4 (mle + sigma * pos)

/-- The data of fits, FitScanner.cxx:1505, 1524-1525. -/
def fitData (c : Cache) : List ℝ := if c.useReduced then c.dataRed else c.data

/-- The weights of fits, FitScanner.cxx:1502. -/
def fitWeights (c : Cache) : Option (List ℝ) := if c.useReduced then c.weightsRed else c.weights

/-- The fixed model with the test source, FitScanner.cxx:1491-1501; outside the range it is zero, line 1466. -/
noncomputable def fixedTemp (c : Cache) (x : ℝ) : Res (List ℝ) := do
  let f ← slice c.fixed c.first c.last
  let t ← slice (if c.useReduced then c.targetRed else c.target) c.first c.last
  let o ← slice (List.replicate c.fixed.length 0) c.first c.last
  let s ← vectorAdd f t o 1 x
  .ok (List.replicate c.first 0 ++ s ++ List.replicate (c.fixed.length - c.last) 0)

/-- Log likelihood of a model, FitScanner.cxx:1524-1535. -/
noncomputable def direct (c : Cache) (m : List ℝ) : Res ℝ := do
  let d ← slice (fitData c) c.first c.last
  let s ← slice m c.first c.last
  match fitWeights c with
  | some w => do
    let ws ← slice w c.first c.last
    logLikePoissonW d s ws
  | none => logLikePoisson d s

/-- One point of the scan, FitScanner.cxx:1485-1537: status and log likelihood. -/
noncomputable def point (invert : List (List ℝ) → Int × (List ℝ → List ℝ)) (svd : List (List ℝ) → ℝ → List ℝ → Int × List ℝ)
    (c : Cache) (x : ℝ) : Res (Int × ℝ) := do
  let ft ← fixedTemp c x
  let ts := c.models.dropLast
  if 0 < ts.length then
    -- `sub(1, n)` beyond the end of the parameters is an exception
    if c.pars.length < ts.length then .throws
    else do
      let r ← fitNorms (env (fitData c) ts ft c.prior (fitWeights c) c.first c.last invert svd) c.tol c.maxIter c.lambda
        (c.pars.take ts.length)
      .ok (r.status, r.logLike)
  else do
    let m ← sumModel [] ts ft (List.replicate c.fixed.length 0) c.first c.last
    -- the three sums, FitScanner.cxx:1520-1522, are not used
    let _ ← slice c.fixed c.first c.last
    let _ ← slice c.targetRed c.first c.last
    let l ← direct c m
    .ok (0, l)

/-- The loop over normalizations, FitScanner.cxx:1485-1540. -/
noncomputable def scanLoop (point : ℝ → Res (Int × ℝ)) (step : ℝ) : Nat → ℝ → Res Scan
  | 0, _ => .ok ⟨0, [], []⟩
  | n + 1, x => do
    let r ← point x
    if r.1 ≠ 0 then .ok ⟨r.1, x :: List.replicate n 0, r.2 :: List.replicate n 0⟩
    else do
      let s ← scanLoop point step n (x + step)
      .ok ⟨s.status, x :: s.norms, r.2 :: s.logLikes⟩

/-- `scanNormalization`, FitScanner.cxx:1438-1541, with empty vectors for the results. -/
noncomputable def scanNormalization (invert : List (List ℝ) → Int × (List ℝ → List ℝ))
    (svd : List (List ℝ) → ℝ → List ℝ → Int × List ℝ) (c : Cache) (nnorm : Nat) (sigma pos neg : ℝ) : Res Scan :=
  match c.test with
  | none => .ok ⟨-1, [], []⟩
  | some i => do
    let mle ← vget c.pars i
    let lo := scanMin mle sigma neg
    let step := (scanMax mle sigma pos - lo) / ((nnorm : ℝ) - 1)
    -- `pop_back` of an empty vector
    if c.models = [] then .ub
    else scanLoop (point invert svd c) step nnorm lo

end Verif.ScanNorm
