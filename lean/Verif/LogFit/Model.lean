import Verif.LogFit.Types
import Verif.Newton.Model
/-
Model of `fitLogNorms_newton`, FitUtils.cxx:1037-1221.
-/
namespace Verif.LogFit
open Newton (protect protectRetry)

/-- `log(norm)`, FitUtils.cxx:1122. -/
noncomputable def clog (x : ℝ) : Ln := open Classical in if 0 < x then .num (Real.log x) else if x = 0 then .negInf else .nan

/-- `logNorms -= delta`, FitUtils.cxx:1156. -/
noncomputable def Ln.sub (l : Ln) (d : ℝ) : Ln :=
  match l with
  | .num x => .num (x - d)
  | .negInf => .negInf
  | .nan => .nan

/-- `fabs(logNorm) > 20`, FitUtils.cxx:1167; comparisons with what is not a number are false. -/
def Ln.diverged : Ln → Prop
  | .num x => 20 < |x|
  | .negInf => True
  | .nan => False

/-- `exp(logNorm)`, FitUtils.cxx:1174; nothing for what is not a number. -/
noncomputable def Ln.exp : Ln → Option ℝ
  | .num x => some (Real.exp x)
  | .negInf => some 0
  | .nan => none

/-- The gradient in the logarithms, FitUtils.cxx:1121. -/
noncomputable def scaleGrad (n g : List ℝ) : List ℝ := List.zipWith (fun gi ni => gi * ni) g n

/-- The Hessian in the logarithms, FitUtils.cxx:1123-1125. -/
noncomputable def scaleHess (n : List ℝ) (h : List (List ℝ)) : List (List ℝ) :=
  List.zipWith (fun row ni => List.zipWith (fun x nj => x * (ni * nj)) row n) h n

/-- Matrix times vector. -/
noncomputable def mulVec (c : List (List ℝ)) (g : List ℝ) : List ℝ :=
  c.map (fun row => (List.zipWith (fun x y => x * y) row g).foldl (fun a b => a + b) 0)

/-- `getDeltaAndCovarAndEDM`, FitUtils.cxx:667-715, once the matrix has been inverted: the step and the estimated distance. -/
noncomputable def delta (c : List (List ℝ)) (g norms : List ℝ) : List ℝ × ℝ :=
  let p := protect (mulVec c g) norms g
  if 0 < p.2.2.2 then (protectRetry (mulVec c p.2.1) norms, p.2.2.1) else (p.1, p.2.2.1)

/-- The variables of the loop. -/
structure St where
  norms : List ℝ
  covar : Nat → Nat → ℝ
  edm : ℝ

/-- The covariance after a step, FitUtils.cxx:1177-1179: only the elements off the diagonal are changed. -/
noncomputable def scaleCovar (c : List (List ℝ)) (n : List ℝ) : Nat → Nat → ℝ := fun i j =>
  if i = j then FitUtils.mat c i j else FitUtils.mat c (max i j) (min i j) / (FitUtils.val n (max i j) * FitUtils.val n (min i j))

/-- What an iteration comes to. -/
inductive Step where
  | failed (code : Int)
  | nan
  | next (s : St)

/-- The checks after a step, FitUtils.cxx:1166-1180. -/
noncomputable def checks (logs : List Ln) (c : List (List ℝ)) (edm : ℝ) : Step :=
  open Classical in
  if ∃ l ∈ logs, l.diverged then .failed (-4)
  else
    match logs.mapM Ln.exp with
    | none => .nan
    | some n => .next ⟨n, scaleCovar c n, edm⟩

/-- One iteration, FitUtils.cxx:1117-1181. -/
noncomputable def iteration (o : Objective) (norms : List ℝ) : Res Step := do
  let gh ← o.gh norms
  let g := scaleGrad norms gh.1
  let r := o.invert (scaleHess norms gh.2)
  if r.1 ≠ 0 then .ok (.failed r.1)
  else
    let d := delta r.2 g norms
    .ok (checks (List.zipWith Ln.sub (norms.map clog) d.1) r.2 d.2)

/-- How the loop is left. -/
inductive Exit where
  | failed (code : Int)
  | nan
  /-- the end of the loop; `maxed` says that no iterations are left -/
  | done (s : St) (maxed : Bool)

/-- The loop with `n` iterations left, FitUtils.cxx:1113-1182. -/
noncomputable def iterate (o : Objective) (tol : ℝ) : Nat → St → Res Exit
  | 0, s => .ok (.done s true)
  | n + 1, s =>
    open Classical in
    if |s.edm| ≤ tol then .ok (.done s false)
    else (iteration o s.norms).bind fun r =>
      match r with
      | .failed c => .ok (.failed c)
      | .nan => .ok .nan
      | .next s' => iterate o tol n s'

/-- The normalizations at the start, FitUtils.cxx:1095-1099: the last one is at least `1e-6`. -/
noncomputable def initial (init : List ℝ) : List ℝ :=
  open Classical in
  if FitUtils.val init (init.length - 1) < 1e-6 then init.set (init.length - 1) 1e-6 else init

/-- The end, FitUtils.cxx:1184-1220; with too many steps the log-likelihood is not computed. -/
noncomputable def conclude (o : Objective) : Exit → Res Out
  | .failed c => .ok (.failed c)
  | .nan => .ok .nan
  | .done s true => .ok (.fit ⟨-2, s.norms, s.covar, s.edm, 0⟩)
  | .done s false => do
    let l ← o.ll s.norms
    .ok (.fit ⟨0, s.norms, s.covar, s.edm, l⟩)

/-- `fitLogNorms_newton`, FitUtils.cxx:1037-1221; `covar0` and `edm0` are the variables handed in. -/
noncomputable def fitLogNorms (o : Objective) (tol : ℝ) (maxIter : Nat) (init : List ℝ) (covar0 : Nat → Nat → ℝ) (edm0 : ℝ) :
    Res Out :=
  if init.length = 0 then do
    let l ← o.ll init
    .ok (.fit ⟨0, init, covar0, edm0, l⟩)
  else do
    let e ← iterate o tol maxIter ⟨initial init, covar0, 100 * tol⟩
    conclude o e

/-- The objective of given data, templates, prior, weights and bins, FitUtils.cxx:1198-1215, 588-665. -/
noncomputable def objective (data : List ℝ) (templates : List (List ℝ)) (fixed : List ℝ) (prior : Option FitUtils.MVPrior)
    (weights : Option (List ℝ)) (firstBin lastBin : Nat) (invert : List (List ℝ) → Int × List (List ℝ)) : Objective where
  ll norms := FitUtils.getLogLikelihood data norms templates fixed prior weights
    (List.replicate fixed.length 0) firstBin lastBin
  gh := Newton.gradHess data templates fixed prior weights firstBin lastBin
  invert := invert

end Verif.LogFit
