import Verif.Newton.Lemmas
import Verif.FitUtils.Lemmas
import Mathlib.Analysis.Complex.ExponentialBounds
set_option linter.unusedSimpArgs false
set_option linter.unusedVariables false
/-
C10, C11, C40: the Newton fit of normalisations.
-/
namespace Verif.Newton

/-! ### C10 -/

theorem start_nonNeg {env : Env} {tol lambda l0 : ℝ} {init : List ℝ} {s : St} (hi : NonNeg init)
    (h : start env tol lambda init l0 = .ok s) : NonNeg s.norms := by
  unfold start at h
  split at h
  · simp only at h
    obtain ⟨_, _, h⟩ := Res.bind_eq_ok.1 h
    simp only [Res.ok.injEq] at h; rw [← h]; exact nonNeg_set hi
  · simp only [Res.ok.injEq] at h; rw [← h]; exact hi

/-- C10: whatever the likelihood, its derivatives and the linear solver answer, and
whatever the return code, a fit started from non-negative normalisations returns
non-negative ones. -/
theorem C10_norms_nonneg (env : Env) (tol : ℝ) (maxIter : Nat) (lambda : ℝ) (init : List ℝ)
    (r : FitResult) (hinit : ∀ x ∈ init, 0 ≤ x)
    (h : fitNorms env tol maxIter lambda init = .ok r) : ∀ x ∈ r.norms, 0 ≤ x := by
  have hi : NonNeg init := hinit
  unfold fitNorms at h
  obtain ⟨l0, _, h⟩ := Res.bind_eq_ok.1 h
  split at h
  · simp only [Res.ok.injEq] at h; rw [← h]; exact hi
  · obtain ⟨s, hs, h⟩ := Res.bind_eq_ok.1 h
    obtain ⟨e, he, h⟩ := Res.bind_eq_ok.1 h
    have hnn := loop_nonNeg _ _ _ _ _ (start_nonNeg hi hs) he
    cases e with
    | ret c s => simp only [conclude, Res.ok.injEq] at h; rw [← h]; exact hnn
    | done s maxed =>
      unfold conclude at h
      obtain ⟨⟨l, edm⟩, _, h⟩ := Res.bind_eq_ok.1 h
      simp only at h
      split at h
      · simp only [Res.ok.injEq] at h; rw [← h]; exact hnn
      · split at h
        · simp only [Res.ok.injEq] at h; rw [← h]
          intro x hx; rw [List.eq_of_mem_replicate hx]
        · simp only [Res.ok.injEq] at h; rw [← h]; exact hnn

/-- C10, iterates: the likelihood and its derivatives are only ever evaluated at
non-negative normalisations — a fit cannot tell apart two likelihoods that agree
there. -/
theorem C10_iterates_nonneg (a b : Env) (tol : ℝ) (maxIter : Nat) (lambda : ℝ) (init : List ℝ)
    (hinit : ∀ x ∈ init, 0 ≤ x) (htot : a.dataTotal = b.dataTotal) (hinv : a.invert = b.invert)
    (hsvd : a.svdSolve = b.svdSolve)
    (hll : ∀ n, (∀ x ∈ n, 0 ≤ x) → a.ll n = b.ll n)
    (hgh : ∀ n, (∀ x ∈ n, 0 ≤ x) → a.gh n = b.gh n) :
    fitNorms a tol maxIter lambda init = fitNorms b tol maxIter lambda init := by
  have hab : AgreeNonNeg a b := ⟨htot, hinv, hsvd, hll, hgh⟩
  have hi : NonNeg init := hinit
  unfold fitNorms
  rw [hll _ hi]
  congr 1; funext l0
  split
  · rfl
  · have hst : start a tol lambda init l0 = start b tol lambda init l0 := by
      unfold start
      simp only [htot, hgh _ (nonNeg_set hi)]
    rw [hst]
    cases hs : start b tol lambda init l0 with
    | throws => simp
    | ub => simp
    | ok s =>
      have hn := start_nonNeg hi hs
      simp only [Res.bind_ok]
      rw [loop_agree hab tol maxIter s hn]
      cases hloop : newtonLoop b tol maxIter s with
      | throws => simp
      | ub => simp
      | ok e =>
        have hnn := loop_nonNeg _ _ _ _ _ hn hloop
        simp only [Res.bind_ok]
        cases e with
        | ret c s => rfl
        | done s m =>
          have hnn' : NonNeg s.norms := hnn
          have : finish a s = finish b s := by
            unfold finish
            rw [hll _ hnn', hgh _ hnn', damped_agree hab]
          unfold conclude
          simp only [this, logLikeInit, htot]
          rfl

/-! A one-bin problem: `n` counts, template 1, no fixed part. -/

/-- Exact inversion of a 1×1 matrix. -/
noncomputable def inv1 (h : List (List ℝ)) : Int × (List ℝ → List ℝ) :=
  (0, fun g => g.map (fun x => x / FitUtils.mat h 0 0))

/-- Exact solution of the damped 1×1 system. -/
noncomputable def svd1 (h : List (List ℝ)) (lambda : ℝ) (g : List ℝ) : Int × List ℝ :=
  (0, g.map (fun x => x / (FitUtils.mat h 0 0 * (1 + lambda))))

/-- The fit of the one-bin problem. -/
noncomputable def one (n : ℝ) : Env := env [n] [[1]] [0] none none 0 0 inv1 svd1

theorem one_total (n : ℝ) : (one n).dataTotal = n := by
  simp [one, env, FitUtils.rangeStop]

theorem one_ll {n x : ℝ} (hn : 1e-9 < n) (hx : 0 < x) :
    (one n).ll [x] = .ok (n * Real.log x - x) := by
  simp [one, env, FitUtils.getLogLikelihood, FitUtils.slice, FitUtils.rangeStop,
    FitUtils.sumModel, FitUtils.addTemplates, FitUtils.addTemplate, loop, vget, vset,
    FitUtils.logLikePoisson, FitUtils.llLoop, hn, not_lt.2 hx.le, not_le.2 hx]

theorem one_ll_zero {x : ℝ} (hx : 0 ≤ x) : (one 0).ll [x] = .ok (- x) := by
  simp [one, env, FitUtils.getLogLikelihood, FitUtils.slice, FitUtils.rangeStop,
    FitUtils.sumModel, FitUtils.addTemplates, FitUtils.addTemplate, loop, vget, vset,
    FitUtils.logLikePoisson, FitUtils.llLoop, not_lt.2 hx]
  norm_num

theorem one_gh {n x : ℝ} (hn : 0 < n) (hx : 0 < x) :
    (one n).gh [x] = .ok ([1 - n / x], [[n / (x * x)]]) := by
  simp [one, env, gradHess, FitUtils.gradientAt, FitUtils.hessianAt, FitUtils.gradElem,
    FitUtils.hessElem, FitUtils.slice, FitUtils.rangeStop, List.mapM_cons,
    FitUtils.sumModel, FitUtils.addTemplates, FitUtils.addTemplate, loop, vget, vset,
    FitUtils.fracDiff, FitUtils.fracDiffLoop, FitUtils.dataOverModel2,
    FitUtils.dataOverModel2Loop, FitUtils.innerProduct2, FitUtils.innerProduct3,
    not_le.2 hn, not_le.2 hx, List.range_succ]

theorem one_gh_zero {x : ℝ} (hx : 0 ≤ x) :
    (one 0).gh [x] = .ok ([1], [[0]]) := by
  simp [one, env, gradHess, FitUtils.gradientAt, FitUtils.hessianAt, FitUtils.gradElem,
    FitUtils.hessElem, FitUtils.slice, FitUtils.rangeStop, List.mapM_cons,
    FitUtils.sumModel, FitUtils.addTemplates, FitUtils.addTemplate, loop, vget, vset,
    FitUtils.fracDiff, FitUtils.fracDiffLoop, FitUtils.dataOverModel2,
    FitUtils.dataOverModel2Loop, FitUtils.innerProduct2, FitUtils.innerProduct3,
    List.range_succ]


/-- C10 on a concrete problem: a one-bin fit started at 3 (one count) whose Newton
step overshoots; it succeeds with a positive normalisation. -/
theorem one_fit : fitNorms (one 1) 1e-3 10 0 [3] = .ok ⟨0, [3], Real.log 3 - 3, 0⟩ := by
  have h3 : ¬ (100 * (1e-3 : ℝ)) ≤ 1e-3 := by norm_num
  have hgh := one_gh (n := 1) (x := 3) (by norm_num) (by norm_num)
  have hll := one_ll (n := 1) (x := 3) (by norm_num) (by norm_num)
  have hund : undamped (one 1) [[1 / (3 * 3)]] [1 - 1 / 3] [3] = .inr ([0], 0) := by
    norm_num [undamped, one, env, inv1, FitUtils.mat, FitUtils.val, protect, protectRetry]
  have hs : start (one 1) 1e-3 0 [3] (1 * Real.log 3 - 3) =
      .ok ⟨[3], 1 * Real.log 3 - 3, 0, 100 * 1e-3⟩ := by
    rw [start, one_total, if_neg (by norm_num)]
  have hl : newtonLoop (one 1) 1e-3 10 ⟨[3], 1 * Real.log 3 - 3, 0, 100 * 1e-3⟩ =
      .ok (.done ⟨[3], 1 * Real.log 3 - 3, 0, 0⟩ false) := by
    rw [newtonLoop, if_neg (by norm_num)]
    simp only [hgh, Res.bind_ok, lt_irrefl, if_false, hund]
    norm_num [sub]
  unfold fitNorms
  rw [hll]
  simp only [Res.bind_ok, hs, hl, List.length_cons, List.length_nil]
  norm_num [conclude, finish, hll, logLikeInit, one_total]

/-! ### C11 -/

theorem start_counts {env : Env} {tol lambda l0 : ℝ} {init : List ℝ}
    (hc : 1e-9 ≤ env.dataTotal) :
    start env tol lambda init l0 = .ok ⟨init, l0, lambda, 100 * tol⟩ := by
  rw [start, if_neg (not_lt.2 hc)]

/-- C11: with damping and with counts in the selected bins every result — whatever
the return code — carries the log-likelihood of the returned normalisations, which is
at least that of the starting point; and the fit is never reset. -/
theorem C11_damped_loglike (env : Env) (tol : ℝ) (maxIter : Nat) (lambda : ℝ) (init : List ℝ)
    (r : FitResult) (hl : 0 < lambda) (hc : 1e-9 ≤ env.dataTotal)
    (h : fitNorms env tol maxIter lambda init = .ok r) :
    env.ll r.norms = .ok r.logLike ∧ ∃ l0, env.ll init = .ok l0 ∧ l0 ≤ r.logLike := by
  unfold fitNorms at h
  obtain ⟨l0, hl0, h⟩ := Res.bind_eq_ok.1 h
  split at h
  · simp only [Res.ok.injEq] at h; rw [← h]; exact ⟨hl0, l0, hl0, le_rfl⟩
  · rw [start_counts hc] at h
    simp only [Res.bind_ok] at h
    obtain ⟨e, he, h⟩ := Res.bind_eq_ok.1 h
    obtain ⟨a, b, c⟩ := loop_damped env tol l0 _ _ e hl hl0 le_rfl he
    cases e with
    | ret c' s =>
      simp only [conclude, Res.ok.injEq] at h; rw [← h]; exact ⟨b, l0, hl0, c⟩
    | done s maxed =>
      have a' : 0 < s.lambda := a
      have b' : env.ll s.norms = .ok s.logLike := b
      have c' : l0 ≤ s.logLike := c
      unfold conclude at h
      obtain ⟨⟨l, edm⟩, h', h⟩ := Res.bind_eq_ok.1 h
      rw [finish, if_neg (ne_of_gt a')] at h'
      have hl' : l = s.logLike := by
        obtain ⟨⟨g, hess⟩, _, h'⟩ := Res.bind_eq_ok.1 h'
        simp only at h'
        split at h' <;> simp only [Res.ok.injEq, Prod.mk.injEq] at h' <;> exact h'.1.symm
      subst hl'
      simp only at h
      split at h
      · simp only [Res.ok.injEq] at h; rw [← h]; exact ⟨b', l0, hl0, c'⟩
      · rw [logLikeInit, if_neg (not_lt.2 hc), if_neg (by linarith)] at h
        simp only [Res.ok.injEq] at h; rw [← h]; exact ⟨b', l0, hl0, c'⟩

/-- A damped fit whose first step is accepted (from 1/2 to 8/11, one count). -/
example : ∃ r, fitNorms (one 1) 1e-3 1 0.1 [1 / 2] = .ok r ∧ r.norms = [8 / 11] ∧
    (0:ℝ) < 0.1 ∧ (1e-9 : ℝ) ≤ (one 1).dataTotal := by
  have hgh := one_gh (n := 1) (x := 1 / 2) (by norm_num) (by norm_num)
  have hgh' := one_gh (n := 1) (x := 8 / 11) (by norm_num) (by norm_num)
  have hll := one_ll (n := 1) (x := 1 / 2) (by norm_num) (by norm_num)
  have hll' := one_ll (n := 1) (x := 8 / 11) (by norm_num) (by norm_num)
  have hlt : Real.log (1 / 2) - 1 / 2 < Real.log (8 / 11) - 8 / 11 := by
    have h1 := Real.one_sub_inv_le_log_of_pos (x := (16 / 11 : ℝ)) (by norm_num)
    rw [show (16 / 11 : ℝ) = (8 / 11) / (1 / 2) by norm_num,
      Real.log_div (by norm_num) (by norm_num)] at h1
    norm_num at h1 ⊢
    linarith
  have hd : damped (one 1) [[1 / (1 / 2 * (1 / 2))]] [1 - 1 / (1 / 2)] [1 / 2] 0.1 =
      .inr ([-(5 / 22)], 5 / 22) := by
    norm_num [damped, one, env, svd1, FitUtils.mat, FitUtils.val, protectDamped, edmOf, abs_of_pos]
  have hs := start_counts (env := one 1) (tol := 1e-3) (lambda := 0.1) (init := [1 / 2])
    (l0 := 1 * Real.log (1 / 2) - 1 / 2) (by rw [one_total]; norm_num)
  have hl : newtonLoop (one 1) 1e-3 1
      ⟨[1 / 2], 1 * Real.log (1 / 2) - 1 / 2, 0.1, 100 * 1e-3⟩ =
      .ok (.done ⟨[8 / 11], 1 * Real.log (8 / 11) - 8 / 11, max 1e-8 (0.1 / 5), 5 / 22⟩ true) := by
    rw [newtonLoop, if_neg (by norm_num)]
    have hsub : sub [1 / 2] [-(5 / 22)] = [8 / 11] := by norm_num [sub]
    have hlt' : 1 * Real.log (1 / 2) - 1 / 2 < 1 * Real.log (8 / 11) - 8 / 11 := by
      rw [one_mul, one_mul]; exact hlt
    have hpos : (0:ℝ) < 0.1 := by norm_num
    simp only [hgh, Res.bind_ok, if_pos hpos, hd, hsub, hll', hlt', decide_true, if_true]
    rw [if_neg (by norm_num), if_neg (by norm_num [abs_of_pos]), newtonLoop]
  have hlam : max (1e-8 : ℝ) (0.1 / 5) ≠ 0 := by
    have : (0:ℝ) < max 1e-8 (0.1 / 5) := lt_max_of_lt_left (by norm_num)
    exact ne_of_gt this
  unfold fitNorms
  rw [hll]
  simp only [Res.bind_ok, hs, hl, List.length_cons, List.length_nil]
  simp only [conclude, finish, if_neg hlam, hgh', Res.bind_ok]
  rw [if_neg (by norm_num)]
  cases damped (one 1) [[1 / (8 / 11 * (8 / 11))]] [1 - 1 / (8 / 11)] [8 / 11] 0 with
  | inl c => exact ⟨_, rfl, rfl, by norm_num, by rw [one_total]; norm_num⟩
  | inr c => exact ⟨_, rfl, rfl, by norm_num, by rw [one_total]; norm_num⟩

/-- C11: without damping (the default) a fit that reports success (code 0) carries the
log-likelihood of the returned normalisations; with counts in the selected bins that
is at most 1 below the starting point's. -/
theorem C11_undamped_loglike (env : Env) (tol : ℝ) (maxIter : Nat) (init : List ℝ)
    (r : FitResult) (h : fitNorms env tol maxIter 0 init = .ok r) (hst : r.status = 0) :
    env.ll r.norms = .ok r.logLike ∧
      (1e-9 ≤ env.dataTotal → ∃ l0, env.ll init = .ok l0 ∧ l0 - 1 ≤ r.logLike) := by
  unfold fitNorms at h
  obtain ⟨l0, hl0, h⟩ := Res.bind_eq_ok.1 h
  split at h
  · simp only [Res.ok.injEq] at h; rw [← h]; exact ⟨hl0, fun _ => ⟨l0, hl0, by simp⟩⟩
  · obtain ⟨s0, hs0, h⟩ := Res.bind_eq_ok.1 h
    have hlam : s0.lambda = 0 := by
      unfold start at hs0
      split at hs0
      · simp only at hs0
        obtain ⟨_, _, hs0⟩ := Res.bind_eq_ok.1 hs0
        simp only [Res.ok.injEq] at hs0; rw [← hs0]
      · simp only [Res.ok.injEq] at hs0; rw [← hs0]
    obtain ⟨e, he, h⟩ := Res.bind_eq_ok.1 h
    obtain ⟨a, b⟩ := loop_undamped env tol _ _ e (le_of_eq hlam) he
    cases e with
    | ret c' s =>
      simp only [conclude, Res.ok.injEq] at h
      exact absurd (by rw [← h] at hst; exact hst) (b c' s rfl)
    | done s maxed =>
      have a' : s.lambda = 0 := by rw [← hlam]; exact a
      unfold conclude at h
      obtain ⟨⟨l, edm⟩, h', h⟩ := Res.bind_eq_ok.1 h
      rw [finish, if_pos a'] at h'
      obtain ⟨l', hll, h'⟩ := Res.bind_eq_ok.1 h'
      simp only [Res.ok.injEq, Prod.mk.injEq] at h'
      rw [h'.1] at hll
      simp only at h
      split at h
      · simp only [Res.ok.injEq] at h; rw [← h] at hst; simp at hst
      · split at h
        · simp only [Res.ok.injEq] at h; rw [← h] at hst; simp at hst
        · rename_i hsan
          simp only [Res.ok.injEq] at h; rw [← h]
          refine ⟨hll, fun hc => ⟨l0, hl0, ?_⟩⟩
          rw [logLikeInit, if_neg (not_lt.2 hc)] at hsan
          simp only; linarith

/-- Hypotheses of `C11_undamped_loglike` on a fit with one real iteration. -/
example : ∃ r, fitNorms (one 1) 1e-3 10 0 [3] = .ok r ∧ r.status = 0 ∧
    (1e-9 : ℝ) ≤ (one 1).dataTotal :=
  ⟨_, one_fit, rfl, by rw [one_total]; norm_num⟩

/-- C11 is violated when the selected bins hold no counts: with damping the last
normalisation is set to 0 after the log-likelihood was taken, success is reported,
and the reported value is the one at the starting point. -/
theorem C11_violates : ∃ (data : List ℝ) (templates : List (List ℝ)) (fixed init : List ℝ)
    (r : FitResult),
    let e := env data templates fixed none none 0 0 inv1 svd1
    fitNorms e 1e-3 10 0.1 init = .ok r ∧ r.status = 0 ∧ r.norms = [0] ∧
      e.ll r.norms = .ok 0 ∧ r.logLike = -1 := by
  refine ⟨[0], [[1]], [0], [1], ⟨0, [0], -1, ?_⟩, ?_⟩
  · exact edmOf (protectDamped [1 / (0 * (1 + 0))] [0] [1]).1 [1]
  · have hl0 := one_ll_zero (x := 0) le_rfl
    have hl1 := one_ll_zero (x := 1) (by norm_num)
    have hgh := one_gh_zero (x := 0) le_rfl
    have hs : start (one 0) 1e-3 0.1 [1] (-1) = .ok ⟨[0], -1, 0.1, 0⟩ := by
      rw [start, one_total, if_pos (by norm_num)]
      simp [hgh]
    have hl : newtonLoop (one 0) 1e-3 10 ⟨[0], -1, 0.1, 0⟩ =
        .ok (.done ⟨[0], -1, 0.1, 0⟩ false) := by
      rw [newtonLoop, if_pos (by norm_num)]
    refine ⟨?_, rfl, rfl, by
      show (one 0).ll [0] = _
      rw [hl0, neg_zero], rfl⟩
    show fitNorms (one 0) 1e-3 10 0.1 [1] = _
    unfold fitNorms
    rw [hl1]
    simp only [Res.bind_ok, hs, hl, List.length_cons, List.length_nil]
    norm_num [conclude, finish, hgh, logLikeInit, one_total, damped, protectDamped]
    norm_num [one, env, svd1, FitUtils.mat, FitUtils.val, protectDamped, edmOf]

/-! ### C40 -/

theorem protect_noRetry : ∀ (ds ns gs : List ℝ), ds.length = ns.length → ds.length = gs.length →
    (protect ds ns gs).2.2.2 = 0 →
    (protect ds ns gs).1 = ds ∧
      (protect ds ns gs).2.2.1 = (List.zipWith (fun d g => |d * g|) ds gs).sum
  | [], ns, gs, _, _, _ => by simp [protect]
  | d :: ds, [], gs, h, _, _ => by simp at h
  | d :: ds, n :: ns, [], _, h, _ => by simp at h
  | d :: ds, n :: ns, g :: gs, h1, h2, h => by
    rw [protect] at h ⊢
    simp only at h ⊢
    by_cases hd : n < d
    · rw [if_pos hd] at h; simp at h
    · rw [if_neg hd] at h ⊢
      simp only [List.length_cons, Nat.add_right_cancel_iff] at h1 h2
      obtain ⟨a, b⟩ := protect_noRetry ds ns gs h1 h2 h
      simp only [a, b, List.zipWith_cons_cons, List.sum_cons, and_self]

theorem protect_retry : ∀ (ds ns gs : List ℝ), 0 < (protect ds ns gs).2.2.2 →
    ∃ (i : Nat) (d n : ℝ), ds[i]? = some d ∧ ns[i]? = some n ∧ n < d
  | [], ns, gs, h => by simp [protect] at h
  | d :: ds, [], gs, h => by simp [protect] at h
  | d :: ds, n :: ns, [], h => by simp [protect] at h
  | d :: ds, n :: ns, g :: gs, h => by
    rw [protect] at h
    simp only at h
    by_cases hd : n < d
    · exact ⟨0, d, n, rfl, rfl, hd⟩
    · rw [if_neg hd] at h
      obtain ⟨i, a, b, h1, h2, h3⟩ := protect_retry ds ns gs h
      exact ⟨i + 1, a, b, by simpa using h1, by simpa using h2, h3⟩

/-- C40, the part that holds: an undamped fit that reports success made a last step
from some point `prev` with gradient `g` and full Newton step `d = H⁻¹ g`; either the
step was cut because a component would have become negative, or the returned point is
`prev - d` and the estimated distance `Σ |d_i g_i|` is at most the tolerance. -/
theorem C40_converged_last_step_partial (env : Env) (tol : ℝ) (maxIter : Nat) (init : List ℝ)
    (r : FitResult) (htol : 0 < tol) (hc : 1e-9 ≤ env.dataTotal) (hne : init ≠ [])
    (hinit : ∀ x ∈ init, 0 ≤ x)
    (hsize : ∀ n g hess, env.gh n = .ok (g, hess) →
      g.length = n.length ∧ ((env.invert hess).2 g).length = n.length)
    (h : fitNorms env tol maxIter 0 init = .ok r) (hst : r.status = 0) :
    ∃ (prev g : List ℝ) (hess : List (List ℝ)), env.gh prev = .ok (g, hess) ∧
      (env.invert hess).1 = 0 ∧
      ((∃ (i : Nat) (d n : ℝ), ((env.invert hess).2 g)[i]? = some d ∧ prev[i]? = some n ∧ n < d) ∨
        (r.norms = List.zipWith (· - ·) prev ((env.invert hess).2 g) ∧
          (List.zipWith (fun d g => |d * g|) ((env.invert hess).2 g) g).sum ≤ tol)) := by
  unfold fitNorms at h
  obtain ⟨l0, hl0, h⟩ := Res.bind_eq_ok.1 h
  rw [if_neg (by simpa using hne), start_counts hc] at h
  simp only [Res.bind_ok] at h
  obtain ⟨e, he, h⟩ := Res.bind_eq_ok.1 h
  obtain ⟨a, b⟩ := loop_undamped env tol _ _ e le_rfl he
  cases e with
  | ret c' s =>
    simp only [conclude, Res.ok.injEq] at h
    exact absurd (by rw [← h] at hst; exact hst) (b c' s rfl)
  | done s maxed =>
    unfold conclude at h
    obtain ⟨⟨l, edm⟩, h', h⟩ := Res.bind_eq_ok.1 h
    simp only at h
    cases maxed with
    | true => simp only [if_true, Res.ok.injEq] at h; rw [← h] at hst; simp at hst
    | false =>
      simp only [Bool.false_eq_true, if_false] at h
      have hr : r.norms = s.norms := by
        split at h
        · simp only [Res.ok.injEq] at h; rw [← h] at hst; simp at hst
        · simp only [Res.ok.injEq] at h; rw [← h]
      have hedm : ¬ |(100 * tol)| ≤ tol := by
        rw [abs_of_pos (by linarith)]; linarith
      obtain ⟨prev, g, hess, delta, edm', hp, hgh, hund, hsub, hle⟩ :=
        loop_last_step env tol _ ⟨init, l0, 0, 100 * tol⟩ s le_rfl hedm hinit he
      obtain ⟨hz1, hz2⟩ := hsize _ _ _ hgh
      refine ⟨prev, g, hess, hgh, ?_, ?_⟩
      · unfold undamped at hund
        simp only at hund
        split at hund
        · simp at hund
        · rename_i hf; simpa using hf
      · unfold undamped at hund
        simp only at hund
        split at hund
        · simp at hund
        · split at hund
          · rename_i hretry
            exact .inl (protect_retry _ _ _ hretry)
          · rename_i hretry
            right
            obtain ⟨h1, h2⟩ := protect_noRetry _ _ _ hz2 (hz2.trans hz1.symm)
              (Nat.eq_zero_of_not_pos hretry)
            simp only [Sum.inr.injEq, Prod.mk.injEq] at hund
            rw [h1, h2] at hund
            refine ⟨by rw [hr, hsub, ← hund.1]; rfl, ?_⟩
            rw [hund.2]
            exact le_trans (le_abs_self _) hle

/-- The hypotheses are met by the one-bin problem. -/
example : ∃ r, fitNorms (one 1) 1e-3 10 0 [3] = .ok r ∧ r.status = 0 ∧ (0:ℝ) < 1e-3 ∧
    (1e-9 : ℝ) ≤ (one 1).dataTotal ∧ ([3] : List ℝ) ≠ [] ∧ (∀ x ∈ ([3] : List ℝ), 0 ≤ x) :=
  ⟨_, one_fit, rfl, by norm_num, by rw [one_total]; norm_num, by simp, by simp⟩

/-- C40 is violated: one bin, one count, template 1, start at 3.  The Newton step
overshoots, the step is replaced by 0 and the reported distance by 0: the fit reports
success (code 0, distance 0) at the starting point 3, where the gradient is 2/3 and
the log-likelihood is smaller than at 1 by more than half a unit. -/
theorem C40_violates : ∃ (data : List ℝ) (templates : List (List ℝ)) (fixed init better : List ℝ)
    (r : FitResult) (l : ℝ),
    let e := env data templates fixed none none 0 0 inv1 svd1
    fitNorms e 1e-3 10 0 init = .ok r ∧ r.status = 0 ∧ r.edm = 0 ∧ r.norms = init ∧
      (∃ hess, e.gh r.norms = .ok ([2 / 3], hess)) ∧
      (∀ x ∈ better, 0 ≤ x) ∧ e.ll better = .ok l ∧ r.logLike + 1 / 2 < l := by
  have hgh := one_gh (n := 1) (x := 3) (by norm_num) (by norm_num)
  have hll := one_ll (n := 1) (x := 1) (by norm_num) (by norm_num)
  refine ⟨[1], [[1]], [0], [3], [1], ⟨0, [3], Real.log 3 - 3, 0⟩, 1 * Real.log 1 - 1,
    one_fit, rfl, rfl, rfl, ⟨[[1 / (3 * 3)]], ?_⟩, by simp, hll, ?_⟩
  · show (one 1).gh [3] = _
    rw [hgh]; norm_num
  · simp only [Real.log_one]
    have : Real.log 3 < 3 / 2 := by
      rw [Real.log_lt_iff_lt_exp (by norm_num)]
      have h2 := Real.exp_one_gt_d9
      have h3 : (1:ℝ) + 1 / 2 ≤ Real.exp (1 / 2) := by
        have := Real.add_one_le_exp (1 / 2 : ℝ); linarith
      have h4 : Real.exp (3 / 2) = Real.exp 1 * Real.exp (1 / 2) := by
        rw [← Real.exp_add]; norm_num
      rw [h4]; nlinarith
    linarith

end Verif.Newton
