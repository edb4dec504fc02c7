import Verif.FitUtils.Model
/-
Model of the Newton normalisation fit, `src/FitUtils.cxx:667-1034`.

The linear algebra of CLHEP (matrix inversion, SVD) is not modelled: it enters as an
arbitrary function, so the theorems hold for every solver.  `model` is a scratch
vector that each call overwrites before reading; it is not part of the state.
-/
namespace Verif.Newton

/-- Everything a fit is given: the log-likelihood and its derivatives as functions
of the normalisations (for the code's own ones see `env` below), the total counts in
the range, and the linear algebra. -/
structure Env where
  /-- `sumVector(data_start, data_end)` -/
  dataTotal : ℝ
  /-- `getLogLikelihood` at given normalisations -/
  ll : List ℝ → Res ℝ
  /-- `getGradientAndHessian` at given normalisations -/
  gh : List ℝ → Res (List ℝ × List (List ℝ))
  /-- `HepSymMatrix::invert`: fail code, and multiplication by the inverse -/
  invert : List (List ℝ) → Int × (List ℝ → List ℝ)
  /-- `svd_solve` of `alpha` (the Hessian with its diagonal times `1+lambda`): fail
  code and solution -/
  svdSolve : List (List ℝ) → ℝ → List ℝ → Int × List ℝ

/-- The first protective loop of the undamped step, FitUtils.cxx:693-700: new `delta`
and `g2`, `edm`, and the number of offending components. -/
noncomputable def protect : List ℝ → List ℝ → List ℝ → List ℝ × List ℝ × ℝ × Nat
  | d :: ds, n :: ns, g :: gs =>
    let (ds', gs', e, r) := protect ds ns gs
    if n < d then (0.9999 * n :: ds', 0 :: gs', |0.9999 * n * 0| + e, r + 1)
    else (d :: ds', g :: gs', |d * g| + e, r)
  | _, _, _ => ([], [], 0, 0)

/-- The second protective loop of the undamped step, FitUtils.cxx:704-711: a
component that still would go negative is not changed. -/
noncomputable def protectRetry : List ℝ → List ℝ → List ℝ
  | d :: ds, n :: ns => (if n < d then 0 else d) :: protectRetry ds ns
  | _, _ => []

/-- `getDeltaAndCovarAndEDM` without damping, FitUtils.cxx:667-715: fail code, or
`delta` and `edm`. -/
noncomputable def undamped (env : Env) (hess : List (List ℝ)) (grad norms : List ℝ) :
    Int ⊕ (List ℝ × ℝ) :=
  let (ifail, covar) := env.invert hess
  if ifail ≠ 0 then .inl ifail
  else
    let (delta, g2, edm, retry) := protect (covar grad) norms grad
    if 0 < retry then .inr (protectRetry (covar g2) norms, edm)
    else .inr (delta, edm)

/-- The protective loop of the damped step, FitUtils.cxx:754-761 and 773-779: new
`delta` and `g2`, and the number of offending components. -/
noncomputable def protectDamped : List ℝ → List ℝ → List ℝ → List ℝ × List ℝ × Nat
  | d :: ds, n :: ns, g :: gs =>
    let (ds', gs', r) := protectDamped ds ns gs
    if n - d < 0 then (min (0.9999 * n) (n - 0) :: ds', 0 :: gs', r + 1)
    else (d :: ds', g :: gs', r)
  | _, _, _ => ([], [], 0)

/-- `edm = Σ |delta_i gradient_i|`, FitUtils.cxx:763-766. -/
noncomputable def edmOf (delta grad : List ℝ) : ℝ :=
  (List.zipWith (fun d g => |d * g|) delta grad).foldl (· + ·) 0

/-- `getDeltaAndCovarAndEDM` with damping, FitUtils.cxx:717-784.  (The covariance
matrix it also fills does not influence the fit.) -/
noncomputable def damped (env : Env) (hess : List (List ℝ)) (grad norms : List ℝ) (lambda : ℝ) :
    Int ⊕ (List ℝ × ℝ) :=
  let (ifail, delta) := env.svdSolve hess lambda grad
  if ifail ≠ 0 then .inl ifail
  else
    let (delta, g2, retry) := protectDamped delta norms grad
    let edm := edmOf delta grad
    if 0 < retry then
      let (ifail, delta) := env.svdSolve hess lambda g2
      if ifail ≠ 0 then .inl ifail
      else .inr ((protectDamped delta norms g2).1, edm)
    else .inr (delta, edm)

/-- The variables the loop of `fitNorms_newton` changes. -/
structure St where
  norms : List ℝ
  logLike : ℝ
  lambda : ℝ
  edm : ℝ

/-- How the loop is left. -/
inductive Exit where
  /-- `return code` from inside the loop -/
  | ret (code : Int) (s : St)
  /-- loop finished; `maxed` is `iter >= maxIter` -/
  | done (s : St) (maxed : Bool)

/-- `norms -= delta` -/
noncomputable def sub (a b : List ℝ) : List ℝ := List.zipWith (· - ·) a b

/-- The loop of `fitNorms_newton`, FitUtils.cxx:887-979, with `n` iterations left. -/
noncomputable def newtonLoop (env : Env) (tol : ℝ) : Nat → St → Res Exit
  | 0, s => .ok (.done s true)
  | n + 1, s =>
    if |s.edm| ≤ tol then .ok (.done s false)
    else do
      let (g, h) ← env.gh s.norms
      match (if 0 < s.lambda then damped env h g s.norms s.lambda
        else undamped env h g s.norms) with
      | .inl c => .ok (.ret c s)
      | .inr (delta, edm) =>
        if 0 < s.lambda then do
          let tmp := sub s.norms delta
          let l ← env.ll tmp
          let better : Bool := decide (s.logLike < l)
          let s' : St := if better
            then { norms := tmp, logLike := l, lambda := max 1e-8 (s.lambda / 5), edm := edm }
            else { s with lambda := s.lambda * 3, edm := edm }
          if s'.norms.any (fun x => decide ((1e9 : ℝ) < x)) then .ok (.ret (-4) s')
          else if |edm| < tol ∧ l - s.logLike < tol ∧ better then .ok (.done s' false)
          else newtonLoop env tol n s'
        else do
          let s' : St := { s with norms := sub s.norms delta, edm := edm }
          if s'.norms.any (fun x => decide ((1e9 : ℝ) < x)) then .ok (.ret (-4) s')
          else if |edm| < tol then .ok (.done s' false)
          else newtonLoop env tol n s'

/-- What `fitNorms_newton` hands back: return code, normalisations, log-likelihood,
estimated distance to the minimum. -/
structure FitResult where
  status : Int
  norms : List ℝ
  logLike : ℝ
  edm : ℝ

/-- The final log-likelihood and `edm`, FitUtils.cxx:981-990. -/
noncomputable def finish (env : Env) (s : St) : Res (ℝ × ℝ) :=
  if s.lambda = 0 then do
    let l ← env.ll s.norms
    .ok (l, s.edm)
  else do
    let (g, h) ← env.gh s.norms
    match damped env h g s.norms 0 with
    | .inl _ => .ok (s.logLike, s.edm)
    | .inr (_, e) => .ok (s.logLike, e)

/-- The state at loop entry, FitUtils.cxx:864-884: without counts the last
normalisation is set to 0, and `edm = 0` skips the loop. -/
noncomputable def start (env : Env) (tol lambda : ℝ) (init : List ℝ) (l0 : ℝ) : Res St :=
  if env.dataTotal < 1e-9 then do
    let norms := init.set (init.length - 1) 0
    let _ ← env.gh norms
    .ok ⟨norms, l0, lambda, 0⟩
  else .ok ⟨init, l0, lambda, 100 * tol⟩

/-- The reference of the sanity check, FitUtils.cxx:859, 884. -/
noncomputable def logLikeInit (env : Env) (l0 : ℝ) : ℝ :=
  if env.dataTotal < 1e-9 then -1.0e99 else l0

/-- After the loop, FitUtils.cxx:981-1033; a `return` from inside the loop skips it. -/
noncomputable def conclude (env : Env) (init : List ℝ) (l0 : ℝ) : Exit → Res FitResult
  | .ret c s => .ok ⟨c, s.norms, s.logLike, s.edm⟩
  | .done s maxed => do
    let (l, edm) ← finish env s
    if maxed then .ok ⟨-2, s.norms, l, edm⟩
    else if l - logLikeInit env l0 < -1 then
      .ok ⟨-8, List.replicate init.length 0, logLikeInit env l0, 0⟩
    else .ok ⟨0, s.norms, l, edm⟩

/-- `fitNorms_newton`, FitUtils.cxx:819-1034.  With `npar == 0` the outgoing `edm` is
left as it was (0 here). -/
noncomputable def fitNorms (env : Env) (tol : ℝ) (maxIter : Nat) (lambda : ℝ) (init : List ℝ) :
    Res FitResult := do
  let l0 ← env.ll init
  if init.length = 0 then .ok ⟨0, init, l0, 0⟩
  else do
    let s ← start env tol lambda init l0
    let e ← newtonLoop env tol maxIter s
    conclude env init l0 e

/-- Gradient and Hessian of the code as one call, FitUtils.cxx:588-665. -/
noncomputable def gradHess (data : List ℝ) (templates : List (List ℝ)) (fixed : List ℝ)
    (prior : Option FitUtils.MVPrior) (weights : Option (List ℝ)) (firstBin lastBin : Nat)
    (norms : List ℝ) : Res (List ℝ × List (List ℝ)) := do
  let scratch := List.replicate fixed.length 0
  let g ← (List.range norms.length).mapM (fun i =>
    FitUtils.gradientAt data norms templates fixed prior weights scratch firstBin lastBin i)
  let h ← (List.range norms.length).mapM (fun i => (List.range norms.length).mapM (fun j =>
    FitUtils.hessianAt data norms templates fixed prior weights scratch firstBin lastBin
      (min i j) (max i j)))
  .ok (g, h)

/-- The environment of `fitNorms_newton` for given data, templates, prior, weights and
bin range. -/
noncomputable def env (data : List ℝ) (templates : List (List ℝ)) (fixed : List ℝ)
    (prior : Option FitUtils.MVPrior) (weights : Option (List ℝ)) (firstBin lastBin : Nat)
    (invert : List (List ℝ) → Int × (List ℝ → List ℝ))
    (svdSolve : List (List ℝ) → ℝ → List ℝ → Int × List ℝ) : Env where
  dataTotal := ((data.drop firstBin).take (FitUtils.rangeStop data.length lastBin - firstBin)).foldl
    (· + ·) 0
  ll norms := FitUtils.getLogLikelihood data norms templates fixed prior weights
    (List.replicate fixed.length 0) firstBin lastBin
  gh := gradHess data templates fixed prior weights firstBin lastBin
  invert := invert
  svdSolve := svdSolve

end Verif.Newton
