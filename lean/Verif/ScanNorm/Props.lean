import Verif.ScanNorm.Lemmas
import Verif.FitUtils.Props
import Verif.Newton.Props
/-
C125: the scan of the normalization of a test source, and its errors.
-/
set_option linter.unusedSectionVars false
set_option linter.unusedSimpArgs false
set_option linter.unusedVariables false
namespace Verif.ScanNorm
open FitUtils FitUtils.Spec Newton

theorem scan_some {inv : List (List ℝ) → Int × (List ℝ → List ℝ)} {svd : List (List ℝ) → ℝ → List ℝ → Int × List ℝ}
    {c : Cache} {i n : Nat} {sigma pos neg : ℝ} (ht : c.test = some i) (hi : i < c.pars.length) (hm : c.models ≠ []) :
    scanNormalization inv svd c n sigma pos neg = scanLoop (point inv svd c)
      ((Spec.high (val c.pars i) sigma pos - Spec.low (val c.pars i) sigma neg) / ((n : ℝ) - 1)) n
      (Spec.low (val c.pars i) sigma neg) := by
  unfold scanNormalization
  rw [ht]
  simp only
  rw [vget_val hi, Res.bind_ok, if_neg hm]
  rfl

/-! ### The normalizations -/

/-- C125: the normalizations of a successful scan are equally spaced from the lowest to the highest one. -/
theorem C125_norms (inv : List (List ℝ) → Int × (List ℝ → List ℝ)) (svd : List (List ℝ) → ℝ → List ℝ → Int × List ℝ) (c : Cache)
    (i n : Nat) (sigma pos neg : ℝ) (ht : c.test = some i) (hi : i < c.pars.length) (hm : c.models ≠ []) (hn : 2 ≤ n) (s : Scan)
    (h : scanNormalization inv svd c n sigma pos neg = .ok s) (h0 : s.status = 0) :
    s.norms.length = n ∧ s.logLikes.length = n ∧
      (∀ j < n, val s.norms j = Spec.low (val c.pars i) sigma neg +
        j * ((Spec.high (val c.pars i) sigma pos - Spec.low (val c.pars i) sigma neg) / ((n : ℝ) - 1))) ∧
      val s.norms 0 = Spec.low (val c.pars i) sigma neg ∧ val s.norms (n - 1) = Spec.high (val c.pars i) sigma pos := by
  rw [scan_some ht hi hm] at h
  obtain ⟨a, b, e⟩ := scanLoop_ok h h0
  refine ⟨a, b, fun j hj => (e j hj).1, ?_, ?_⟩
  · rw [(e 0 (by omega)).1]; simp
  · rw [(e (n - 1) (by omega)).1]
    have h1 : ((n - 1 : Nat) : ℝ) = (n : ℝ) - 1 := by rw [Nat.cast_sub (by omega)]; simp
    have h2 : (n : ℝ) - 1 ≠ 0 := by
      have : (2 : ℝ) ≤ n := by exact_mod_cast hn
      linarith
    rw [h1]
    field_simp
    ring

/-- C125: with an upper error (or with a best value not above 2.5e-4) the scan contains the best value, if
that is at least 1e-10. -/
theorem C125_contains (best sigma pos neg : ℝ) (hs : 0 ≤ sigma) (hb : 1e-10 ≤ best) (hp : 0 ≤ pos ∨ best ≤ 2.5e-4) :
    Spec.low best sigma neg ≤ best ∧ best ≤ Spec.high best sigma pos := by
  unfold Spec.low Spec.high
  constructor
  · split
    · exact hb
    · rename_i h
      exact max_le hb (by have := mul_nonneg hs (not_lt.1 h); linarith)
  · split
    · rename_i h
      rcases hp with h' | h'
      · linarith
      · exact h'
    · rename_i h
      exact le_max_of_le_right (by have := mul_nonneg hs (not_lt.1 h); linarith)

example : (0 : ℝ) ≤ 3 ∧ (1e-10 : ℝ) ≤ 1e-5 ∧ ((0 : ℝ) ≤ -1 ∨ (1e-5 : ℝ) ≤ 2.5e-4) := by norm_num

theorem low_pos (best sigma neg : ℝ) : 0 < Spec.low best sigma neg := by
  unfold Spec.low
  split
  · norm_num
  · exact lt_max_of_lt_left (by norm_num)

theorem high_pos (best sigma pos : ℝ) : 0 < Spec.high best sigma pos := by
  unfold Spec.high
  split
  · norm_num
  · exact lt_max_of_lt_left (by norm_num)

theorem between_pos {a b : ℝ} (ha : 0 < a) (hb : 0 < b) {n j : Nat} (hn : 2 ≤ n) (hj : j < n) :
    0 < a + j * ((b - a) / ((n : ℝ) - 1)) := by
  have h2 : (2 : ℝ) ≤ n := by exact_mod_cast hn
  have h1 : (0 : ℝ) < (n : ℝ) - 1 := by linarith
  have hj' : (j : ℝ) ≤ (n : ℝ) - 1 := by
    have : j + 1 ≤ n := hj
    have : ((j + 1 : Nat) : ℝ) ≤ n := by exact_mod_cast this
    push_cast at this
    linarith
  have hj0 : (0 : ℝ) ≤ j := Nat.cast_nonneg j
  have e : a + j * ((b - a) / ((n : ℝ) - 1)) = (a * ((n : ℝ) - 1 - j) + b * j) / ((n : ℝ) - 1) := by
    field_simp
    ring
  rw [e]
  apply div_pos _ h1
  rcases eq_or_lt_of_le hj0 with h | h
  · rw [← h]; nlinarith
  · nlinarith [mul_nonneg ha.le (sub_nonneg.2 hj'), mul_pos hb h]

/-! ### Log likelihoods -/

/-- C125: without other free sources, and with compressed data, the scan succeeds and every log likelihood is the Poisson log likelihood of
the fixed model plus the normalization times the model of the test source, in the bins of the scan.  `_partial`: see
`C125_full_violates` and `C125_flat_violates`. -/
theorem C125_direct_partial (inv : List (List ℝ) → Int × (List ℝ → List ℝ)) (svd : List (List ℝ) → ℝ → List ℝ → Int × List ℝ)
    (c : Cache) (t : List ℝ) (n : Nat) (sigma pos neg : ℝ) (hn : 2 ≤ n) (hc : Spec.Fits c [] t) (hr : c.useReduced = true)
    (hf : ∀ k, c.first ≤ k → k < c.last → 0 ≤ val c.fixed k) (hp : ∀ k, c.first ≤ k → k < c.last → 0 ≤ val t k)
    (hd : ∀ k, c.first ≤ k → k < c.last → (1e-9 : ℝ) < val (Spec.data c) k * weightAt (Spec.weights c) k →
      0 < val c.fixed k ∨ 0 < val t k) :
    ∃ s, scanNormalization inv svd c n sigma pos neg = .ok s ∧ s.status = 0 ∧ s.norms.length = n ∧ s.logLikes.length = n ∧
      ∀ j < n, val s.logLikes j = ∑ k ∈ Finset.Ico c.first c.last,
        ((if (1e-9 : ℝ) < val (Spec.data c) k * weightAt (Spec.weights c) k then
            val (Spec.data c) k * weightAt (Spec.weights c) k * Real.log (val c.fixed k + val s.norms j * val t k) else 0) -
          (val c.fixed k + val s.norms j * val t k) * weightAt (Spec.weights c) k) := by
  have hm : c.models ≠ [] := by rw [hc.models]; simp
  have hi : 0 < c.pars.length := by rw [hc.pars]; omega
  have hl := hc.last
  have hrg := hc.range
  have hsel : lastSel (Spec.data c).length c.last = c.last := by unfold lastSel; rw [if_neg (by omega)]
  have V : ∀ x, 0 < x → getLogLikelihood (Spec.data c) [x] [t] c.fixed none (Spec.weights c) (List.replicate c.fixed.length 0)
      c.first c.last = .ok (∑ k ∈ Finset.Ico c.first c.last,
        ((if (1e-9 : ℝ) < val (Spec.data c) k * weightAt (Spec.weights c) k then
            val (Spec.data c) k * weightAt (Spec.weights c) k * Real.log (val c.fixed k + x * val t k) else 0) -
          (val c.fixed k + x * val t k) * weightAt (Spec.weights c) k)) := by
    intro x hx
    have hmod : ∀ k, modelAt [x] [t] c.fixed k = val c.fixed k + x * val t k := by
      intro k; simp [modelAt, tmplSum]
    rw [C09_value (Spec.data c) [x] [t] c.fixed _ (Spec.weights c) none c.first c.last
      ⟨hc.fixed, by simp [hc.fixed], rfl, by intro s hs; rw [List.mem_singleton.1 hs, hc.one], hc.weights,
        by rw [hsel]; exact hrg, hc.inside⟩ (by
        intro k hk
        obtain ⟨k1, k2⟩ := hk
        rw [hsel] at k2
        rw [hmod]
        refine ⟨add_nonneg (hf k k1 k2) (mul_nonneg hx.le (hp k k1 k2)), fun h => ?_⟩
        rcases hd k k1 k2 h with h' | h'
        · exact add_pos_of_pos_of_nonneg h' (mul_nonneg hx.le (hp k k1 k2))
        · exact add_pos_of_nonneg_of_pos (hf k k1 k2) (mul_pos hx h'))]
    rw [if_neg (by omega)]
    simp only [hmod, Option.map_none, Option.getD_none, add_zero]
  have P : ∀ x, 0 < x → ∃ l, point inv svd c x = .ok (0, l) := by
    intro x hx
    rw [point_direct hc hr, V x hx, Res.bind_ok]
    exact ⟨_, rfl⟩
  have hpos : ∀ j < n, 0 < Spec.low (val c.pars 0) sigma neg +
      j * ((Spec.high (val c.pars 0) sigma pos - Spec.low (val c.pars 0) sigma neg) / ((n : ℝ) - 1)) := fun j hj =>
    between_pos (low_pos _ _ _) (high_pos _ _ _) hn hj
  have htest : c.test = some 0 := by rw [hc.test]; rfl
  rw [scan_some htest hi hm]
  obtain ⟨s, hs, h0⟩ := scanLoop_total (P := point inv svd c) (n := n) (fun j hj => P _ (hpos j hj))
  refine ⟨s, hs, h0, ?_⟩
  obtain ⟨a, b, e⟩ := scanLoop_ok hs h0
  refine ⟨a, b, ?_⟩
  intro j hj
  obtain ⟨e1, e2⟩ := e j hj
  rw [point_direct hc hr, V _ (hpos j hj), Res.bind_ok] at e2
  simp only [Res.ok.injEq, Prod.mk.injEq, true_and] at e2
  rw [e1, ← e2]

/-- A cache with one bin and one count, for examples. -/
noncomputable def oneBin : Cache :=
  ⟨true, 0, 1, [1], [1], none, none, [[2]], [1], [2], [2], [1e-5], [0], fun _ _ => 1, some 0, none, 1e-3, 10, 0⟩

theorem oneBin_fits : Spec.Fits oneBin [] [2] where
  test := rfl
  models := rfl
  target := rfl
  pars := rfl
  fixed := rfl
  one := rfl
  others := by simp
  weights := by intro w h; cases h
  range := by simp [oneBin]
  last := by simp [oneBin]
  inside := by simp [oneBin, Spec.data]

/-- A case in which the hypotheses hold. -/
example (inv : List (List ℝ) → Int × (List ℝ → List ℝ)) (svd : List (List ℝ) → ℝ → List ℝ → Int × List ℝ) :
    ∃ s, scanNormalization inv svd oneBin 2 1 0 (-1) = .ok s ∧
      val s.logLikes 0 = Real.log (1 + 1e-10 * 2) - (1 + 1e-10 * 2) := by
  have key : ∀ k, oneBin.first ≤ k → k < oneBin.last → k = 0 := by
    intro k _ h
    have : k < 1 := h
    omega
  obtain ⟨s, h, h0, a, b, e⟩ := C125_direct_partial inv svd oneBin [2] 2 1 0 (-1) (by norm_num) oneBin_fits rfl
    (by intro k h1 h2; rw [key k h1 h2]; norm_num [oneBin, val]) (by intro k h1 h2; rw [key k h1 h2]; norm_num [val])
    (by intro k h1 h2 _; rw [key k h1 h2]; left; norm_num [oneBin, val])
  refine ⟨s, h, ?_⟩
  have hx := (C125_norms inv svd oneBin 0 2 1 0 (-1) rfl (by simp [oneBin]) (by simp [oneBin]) (by norm_num) s h h0).2.2.2.1
  rw [e 0 (by norm_num), hx]
  norm_num [oneBin, val, Spec.data, Spec.weights, Spec.low, weightAt]

/-- C125: with other free sources every log likelihood of a successful scan is the log likelihood of some
normalizations of these sources together with the one of the scan (plus their prior): with damping, and counts in the bins, at
least that of the present normalizations of these sources; without damping at most 1 below.  `_partial`: that it
is the highest one is not proved (see C40). -/
theorem C125_profile_partial (inv : List (List ℝ) → Int × (List ℝ → List ℝ)) (svd : List (List ℝ) → ℝ → List ℝ → Int × List ℝ)
    (c : Cache) (ts : List (List ℝ)) (t : List ℝ) (n : Nat) (sigma pos neg : ℝ) (hc : Spec.Fits c ts t) (ho : ts ≠ [])
    (hdamp : c.lambda = 0 ∨ 0 < c.lambda) (hcnt : 1e-9 ≤ (((Spec.data c).drop c.first).take (c.last - c.first)).sum) (s : Scan)
    (h : scanNormalization inv svd c n sigma pos neg = .ok s) (h0 : s.status = 0) :
    ∀ j < n, ∃ (p : List ℝ) (l l0 : ℝ), getLogLikelihood (Spec.data c) (p ++ [val s.norms j]) c.models c.fixed none (Spec.weights c)
          (List.replicate c.fixed.length 0) c.first c.last = .ok l ∧
        val s.logLikes j = l + (c.prior.map fun q => q.logLikelihood p).getD 0 ∧
        getLogLikelihood (Spec.data c) (c.pars.take ts.length ++ [val s.norms j]) c.models c.fixed none (Spec.weights c)
          (List.replicate c.fixed.length 0) c.first c.last = .ok l0 ∧
        l0 + (c.prior.map fun q => q.logLikelihood (c.pars.take ts.length)).getD 0 - (if c.lambda = 0 then 1 else 0) ≤
          val s.logLikes j := by
  intro j hj
  have hm : c.models ≠ [] := by rw [hc.models]; simp
  rw [scan_some hc.test (by rw [hc.pars]; omega) hm] at h
  obtain ⟨_, _, e⟩ := scanLoop_ok h h0
  obtain ⟨e1, e2⟩ := e j hj
  rw [← e1] at e2
  obtain ⟨en, r, hr, hst, hll, htot, hlen', hsh⟩ := point_profile hc ho _ e2
  have hinit : (c.pars.take ts.length).length = ts.length := by rw [List.length_take, hc.pars]; omega
  have key : en.ll r.norms = .ok r.logLike ∧ ∃ l0, en.ll (c.pars.take ts.length) = .ok l0 ∧
      l0 - (if c.lambda = 0 then 1 else 0) ≤ r.logLike := by
    rcases hdamp with hd | hd
    · rw [hd] at hr
      obtain ⟨a, b⟩ := C11_undamped_loglike en c.tol c.maxIter _ r hr hst
      obtain ⟨l0, b1, b2⟩ := b (by rw [htot]; exact hcnt)
      exact ⟨a, l0, b1, by rw [if_pos hd]; exact b2⟩
    · obtain ⟨a, l0, b1, b2⟩ := C11_damped_loglike en c.tol c.maxIter c.lambda _ r hd (by rw [htot]; exact hcnt) hr
      exact ⟨a, l0, b1, by rw [if_neg hd.ne']; simpa using b2⟩
  obtain ⟨k1, l0, k2, k3⟩ := key
  rw [hsh _ (hlen' _ _ k1)] at k1
  rw [hsh _ hinit] at k2
  obtain ⟨l, f1, f2⟩ := Res.bind_eq_ok.1 k1
  obtain ⟨m, g1, g2⟩ := Res.bind_eq_ok.1 k2
  cases g2
  simp only [Res.ok.injEq] at f2
  exact ⟨r.norms, l, m, f1, by rw [← hll, ← f2], g1, by rw [← hll]; exact k3⟩

/-- A cache with one bin, one count and another free source, for examples. -/
noncomputable def twoFree : Cache :=
  ⟨true, 0, 1, [1], [1], none, none, [[1], [2]], [1], [2], [2], [1, 1e-5], [0, 0], fun _ _ => 1, some 1, none, 0, 10, 0⟩

theorem twoFree_fits : Spec.Fits twoFree [[1]] [2] where
  test := rfl
  models := rfl
  target := rfl
  pars := rfl
  fixed := rfl
  one := rfl
  others := by simp [twoFree, Spec.data]
  weights := by intro w h; cases h
  range := by simp [twoFree]
  last := by simp [twoFree]
  inside := by simp [twoFree, Spec.data]

theorem twoFree_point (inv : List (List ℝ) → Int × (List ℝ → List ℝ)) (svd : List (List ℝ) → ℝ → List ℝ → Int × List ℝ)
    {x : ℝ} (hx : 0 < x) : point inv svd twoFree x = .ok (0, Real.log (1 + x * 2 + 1) - (1 + x * 2 + 1)) := by
  obtain ⟨ft, e1, e2, e3⟩ := fixedTemp_ok twoFree_fits x
  have e4 := e3 0 (by simp [twoFree]) (by simp [twoFree])
  obtain ⟨y, rfl⟩ : ∃ y, ft = [y] := List.length_eq_one_iff.1 (by rw [e2]; rfl)
  have hy : y = 1 + x * 2 := by simpa [twoFree, val] using e4
  have hl : getLogLikelihood (fitData twoFree) [1] [[1]] [y] none none [0] 0 1 = .ok (Real.log (1 + x * 2 + 1) - (1 + x * 2 + 1)) := by
    rw [hy]
    have h1 : ¬ (1 + x * 2 + 1 < 0) := by linarith
    have h2 : ¬ (1 + x * 2 + 1 ≤ 0) := by linarith
    have h3 : (1e-9 : ℝ) < 1 := by norm_num
    simp [fitData, twoFree, getLogLikelihood, slice, rangeStop, sumModel, addTemplates, addTemplate, loop, vget, vset,
      logLikePoisson, llLoop, h1, h2, h3]
  unfold point
  rw [e1, Res.bind_ok]
  have hf : fitNorms (env (fitData twoFree) [[1]] [y] none none 0 1 inv svd) 0 10 0 [1] =
      .ok ⟨0, [1], Real.log (1 + x * 2 + 1) - (1 + x * 2 + 1), 0⟩ := by
    have hll : (env (fitData twoFree) [[1]] [y] none none 0 1 inv svd).ll [1] = .ok (Real.log (1 + x * 2 + 1) - (1 + x * 2 + 1)) := hl
    have htot : (env (fitData twoFree) [[1]] [y] none none 0 1 inv svd).dataTotal = 1 := by
      simp [env, fitData, twoFree, rangeStop]
    unfold fitNorms
    rw [hll, Res.bind_ok, if_neg (by simp), start_counts (by rw [htot]; norm_num), Res.bind_ok, newtonLoop, if_pos (by simp)]
    simp only [Res.bind_ok, conclude, finish, if_true, hll]
    rw [logLikeInit, htot, if_neg (by norm_num)]
    norm_num
  have : twoFree.models.dropLast = [[1]] := rfl
  simp only [this]
  rw [if_pos (by simp), if_neg (by simp [twoFree])]
  have h2 : twoFree.pars.take [[(1:ℝ)]].length = [1] := rfl
  rw [h2]
  show (do let r ← fitNorms (env (fitData twoFree) [[1]] [y] none none 0 1 inv svd) 0 10 0 [1]; Res.ok (r.status, r.logLike)) = _
  rw [hf, Res.bind_ok]

/-- A case in which the hypotheses hold. -/
example (inv : List (List ℝ) → Int × (List ℝ → List ℝ)) (svd : List (List ℝ) → ℝ → List ℝ → Int × List ℝ) :
    Spec.Fits twoFree [[1]] [2] ∧ 1e-9 ≤ (((Spec.data twoFree).drop twoFree.first).take (twoFree.last - twoFree.first)).sum ∧
      ∃ s, scanNormalization inv svd twoFree 2 1 0 (-1) = .ok s ∧ s.status = 0 := by
  refine ⟨twoFree_fits, by norm_num [Spec.data, twoFree], ?_⟩
  rw [scan_some (i := 1) rfl (by simp [twoFree]) (by simp [twoFree])]
  exact scanLoop_total (fun j hj => ⟨_, twoFree_point inv svd (between_pos (low_pos _ _ _) (high_pos _ _ _) le_rfl hj)⟩)

/-! ### Violations in scans -/

theorem fixedTemp_zero {c : Cache} (h1 : c.first = 0) (h2 : c.last = 0) (x : ℝ) :
    fixedTemp c x = .ok (List.replicate c.fixed.length 0) := by
  unfold fixedTemp slice vectorAdd
  rw [h1, h2]
  simp

theorem point_flat {inv : List (List ℝ) → Int × (List ℝ → List ℝ)} {svd : List (List ℝ) → ℝ → List ℝ → Int × List ℝ}
    {c : Cache} (h1 : c.first = 0) (h2 : c.last = 0) (x y : ℝ) : point inv svd c x = point inv svd c y := by
  unfold point
  rw [fixedTemp_zero h1 h2, fixedTemp_zero h1 h2]

/-- C125 violated: when the bins of the scan are given by the end 0, which stands for all bins in fits, the fixed
model and the test source are left out: all log likelihoods of a scan are the same. -/
theorem C125_flat_violates (inv : List (List ℝ) → Int × (List ℝ → List ℝ)) (svd : List (List ℝ) → ℝ → List ℝ → Int × List ℝ)
    (c : Cache) (i n : Nat) (sigma pos neg : ℝ) (ht : c.test = some i) (hi : i < c.pars.length) (hm : c.models ≠ [])
    (h1 : c.first = 0) (h2 : c.last = 0) (s : Scan) (h : scanNormalization inv svd c n sigma pos neg = .ok s) (h0 : s.status = 0) :
    ∀ j < n, ∀ k < n, val s.logLikes j = val s.logLikes k := by
  intro j hj k hk
  rw [scan_some ht hi hm] at h
  obtain ⟨_, _, e⟩ := scanLoop_ok h h0
  have a := (e j hj).2
  have b := (e k hk).2
  rw [point_flat h1 h2 _ (Spec.low (val c.pars i) sigma neg +
    k * ((Spec.high (val c.pars i) sigma pos - Spec.low (val c.pars i) sigma neg) / ((n : ℝ) - 1)))] at a
  rw [a] at b
  simpa using b

/-- Such a scan succeeds, with zeros, when there are no other free sources. -/
theorem C125_zero_violates (inv : List (List ℝ) → Int × (List ℝ → List ℝ)) (svd : List (List ℝ) → ℝ → List ℝ → Int × List ℝ)
    (c : Cache) (t : List ℝ) (i n : Nat) (sigma pos neg : ℝ) (ht : c.test = some i) (hi : i < c.pars.length) (hm : c.models = [t])
    (h1 : c.first = 0) (h2 : c.last = 0) :
    ∃ s, scanNormalization inv svd c n sigma pos neg = .ok s ∧ s.status = 0 ∧ ∀ j < n, val s.logLikes j = 0 := by
  have P : ∀ x, point inv svd c x = .ok (0, 0) := by
    intro x
    unfold point
    rw [fixedTemp_zero h1 h2, Res.bind_ok]
    simp only [hm, List.dropLast_singleton, List.length_nil]
    obtain ⟨T, a1, a2, _⟩ := sumModel_ok (norms := []) (ts := []) (fixed := List.replicate c.fixed.length (0 : ℝ))
      (total := List.replicate c.fixed.length (0 : ℝ)) (first := 0) (last := 0) rfl rfl (by simp [rangeStop])
      (by simp [rangeStop]) (by simp)
    have hs : ∀ l : List ℝ, slice l 0 0 = .ok [] := by intro l; simp [slice]
    rw [if_neg (by omega), h1, h2, a1, Res.bind_ok, hs, Res.bind_ok, hs, Res.bind_ok]
    unfold direct
    rw [h1, h2, hs, Res.bind_ok, hs, Res.bind_ok]
    cases fitWeights c with
    | none => simp [logLikePoisson, llLoop]
    | some w =>
      simp only
      rw [hs, Res.bind_ok]
      simp [logLikePoissonW, llLoopW]
  rw [scan_some ht hi (by rw [hm]; simp)]
  obtain ⟨s, hs, h0⟩ := scanLoop_total (P := point inv svd c) (n := n) (fun j hj => ⟨0, P _⟩)
  refine ⟨s, hs, h0, ?_⟩
  intro j hj
  have := ((scanLoop_ok hs h0).2.2 j hj).2
  rw [P] at this
  simpa using this.symm

example : ∃ c : Cache, c.test = some 0 ∧ 0 < c.pars.length ∧ c.models = [[2]] ∧ c.first = 0 ∧ c.last = 0 ∧ c.data = [1] :=
  ⟨{ oneBin with last := 0 }, rfl, by simp [oneBin], rfl, rfl, rfl, rfl⟩

/-- C125 violated: without compressed data and without other free sources the scan reads the compressed model of the
test source, which does not exist. -/
theorem C125_full_violates (inv : List (List ℝ) → Int × (List ℝ → List ℝ)) (svd : List (List ℝ) → ℝ → List ℝ → Int × List ℝ)
    (c : Cache) (t : List ℝ) (n : Nat) (sigma pos neg : ℝ) (hn : 0 < n) (hc : Spec.Fits c [] t) (hr : c.useReduced = false)
    (he : c.targetRed = []) : scanNormalization inv svd c n sigma pos neg = .ub := by
  have hm : c.models ≠ [] := by rw [hc.models]; simp
  have hl := hc.last
  have hin := hc.inside
  have hf := hc.fixed
  have hrg := hc.range
  have hst : ∀ n : Nat, rangeStop n c.last = c.last := fun n => by unfold rangeStop; rw [if_neg (by omega)]
  rw [scan_some hc.test (by rw [hc.pars]; simp) hm]
  obtain ⟨m, rfl⟩ : ∃ m, n = m + 1 := ⟨n - 1, by omega⟩
  rw [scanLoop]
  obtain ⟨ft, e1, e2, _⟩ := fixedTemp_ok hc (Spec.low (val c.pars ([] : List (List ℝ)).length) sigma neg)
  unfold point
  obtain ⟨T, a1, a2, _⟩ := sumModel_ok (norms := []) (ts := []) (fixed := ft) (total := List.replicate c.fixed.length (0 : ℝ))
    (first := c.first) (last := c.last) (by simp; omega) rfl (by rw [hst]; omega) (by rw [hst]; simp; omega) (by simp)
  obtain ⟨f, f1, _, _⟩ := slice_ok (l := c.fixed) hc.range (by omega)
  rw [e1, Res.bind_ok]
  simp only [hc.models, List.nil_append, List.dropLast_singleton, List.length_nil]
  rw [if_neg (by omega), a1, Res.bind_ok, f1, Res.bind_ok, he]
  have : slice [] c.first c.last = .ub := by unfold slice; rw [if_pos (by simp; omega)]
  rw [this]
  rfl

example : Spec.Fits { oneBin with useReduced := false, dataRed := [], targetRed := [] } [] [2] where
  test := rfl
  models := rfl
  target := rfl
  pars := rfl
  fixed := rfl
  one := rfl
  others := by simp
  weights := by intro w h; cases h
  range := by simp [oneBin]
  last := by simp [oneBin]
  inside := by simp [oneBin, Spec.data]

/-- C125 violated: without an upper error the scan ends at 2.5e-4, also below the best value. -/
theorem C125_outside_violates (inv : List (List ℝ) → Int × (List ℝ → List ℝ)) (svd : List (List ℝ) → ℝ → List ℝ → Int × List ℝ)
    (c : Cache) (i n : Nat) (sigma pos neg : ℝ) (ht : c.test = some i) (hi : i < c.pars.length) (hm : c.models ≠ []) (hn : 2 ≤ n)
    (hp : pos < 0) (hg : neg < 0) (hb : 2.5e-4 < val c.pars i) (s : Scan) (h : scanNormalization inv svd c n sigma pos neg = .ok s)
    (h0 : s.status = 0) : ∀ j < n, val s.norms j < val c.pars i := by
  intro j hj
  rw [(C125_norms inv svd c i n sigma pos neg ht hi hm hn s h h0).2.2.1 j hj]
  have hlo : Spec.low (val c.pars i) sigma neg = 1e-10 := by unfold Spec.low; rw [if_pos hg]
  have hhi : Spec.high (val c.pars i) sigma pos = 2.5e-4 := by unfold Spec.high; rw [if_pos hp]
  rw [hlo, hhi]
  have h2 : (2 : ℝ) ≤ n := by exact_mod_cast hn
  have hj' : (j : ℝ) ≤ (n : ℝ) - 1 := by
    have : ((j + 1 : Nat) : ℝ) ≤ n := by exact_mod_cast hj
    push_cast at this
    linarith
  have h3 : (j : ℝ) * (((2.5e-4 : ℝ) - 1e-10) / ((n : ℝ) - 1)) ≤ 2.5e-4 - 1e-10 := by
    rw [← mul_div_assoc, div_le_iff₀ (by linarith), mul_comm]
    exact mul_le_mul_of_nonneg_left hj' (by norm_num)
  linarith

/-- A case in which the hypotheses hold: best value 1. -/
example (inv : List (List ℝ) → Int × (List ℝ → List ℝ)) (svd : List (List ℝ) → ℝ → List ℝ → Int × List ℝ) :
    ∃ s, scanNormalization inv svd { oneBin with pars := [1] } 3 1 (-1) (-1) = .ok s ∧ ∀ j < 3, val s.norms j < 1 := by
  have key : ∀ k, oneBin.first ≤ k → k < oneBin.last → k = 0 := by
    intro k _ h
    have : k < 1 := h
    omega
  have hf : Spec.Fits { oneBin with pars := [1] } [] [2] :=
    { test := rfl, models := rfl, target := rfl, pars := rfl, fixed := rfl, one := rfl, others := by simp
      weights := by intro w h; cases h
      range := by simp [oneBin]
      last := by simp [oneBin]
      inside := by simp [oneBin, Spec.data] }
  obtain ⟨s, h, h0, _⟩ := C125_direct_partial inv svd { oneBin with pars := [1] } [2] 3 1 (-1) (-1) (by norm_num) hf rfl
    (by intro k h1 h2; rw [key k h1 h2]; norm_num [oneBin, val]) (by intro k h1 h2; rw [key k h1 h2]; norm_num [val])
    (by intro k h1 h2 _; rw [key k h1 h2]; left; norm_num [oneBin, val])
  refine ⟨s, h, ?_⟩
  simpa [val] using C125_outside_violates inv svd { oneBin with pars := [1] } 0 3 1 (-1) (-1) rfl (by simp) (by simp [oneBin])
    (by norm_num) (by norm_num) (by norm_num) (by norm_num [val]) s h h0

/-! ### The errors -/

/-- What the errors are: for a variance of at least 1e-10 minus the log likelihood would increase by `delta` if its
curvature were twice the inverse of the variance; the lower error is -1 if it would exceed the value.  `_partial`:
the curvature is the inverse of the variance, see `C125_errors_violates`. -/
theorem C125_errors_partial (trunc : ℝ → Int) (c : Cache) (i : Nat) (delta : ℝ) (old : Errors) (ht : c.test = some i)
    (hg : i < c.grad.length) (hp : i < c.pars.length) (hv : 1e-10 ≤ c.cov i i) (hd : 0 ≤ delta) :
    ∃ e, signalUncertainty trunc c delta old = .ok (0, e) ∧ 0 ≤ e.pos ∧ Spec.increase (val c.grad i) (2 / c.cov i i) e.pos = delta ∧
      ∃ r, 0 ≤ r ∧ Spec.increase (val c.grad i) (2 / c.cov i i) (-r) = delta ∧
        e.neg = if r ≤ val c.pars i then r else -1 := by
  set v := c.cov i i with hvd
  set b := val c.grad i with hbd
  have hv0 : 0 < v := lt_of_lt_of_le (by norm_num) hv
  have ha : 0 < 1 / v := by positivity
  have hq : 0 ≤ 4 * (1 / v) * delta := by positivity
  have hdet : 0 ≤ b * b + 4 * (1 / v) * delta := add_nonneg (mul_self_nonneg b) hq
  have hsq := Real.mul_self_sqrt hdet
  have hge : |b| ≤ Real.sqrt (b * b + 4 * (1 / v) * delta) := by
    rw [← Real.sqrt_mul_self_eq_abs]
    exact Real.sqrt_le_sqrt (by linarith)
  have h1 := neg_abs_le b
  have h2 := le_abs_self b
  unfold signalUncertainty
  rw [ht]
  simp only
  rw [vget_val hg, Res.bind_ok, vget_val hp, Res.bind_ok]
  unfold solve
  rw [if_neg (by rw [abs_of_pos hv0]; linarith)]
  simp only
  rw [if_neg (not_lt.2 hdet)]
  set q := Real.sqrt (b * b + 4 * (1 / v) * delta) with hqd
  have hq2 : q * q * v = b * b * v + 4 * delta := by
    rw [hsq]; field_simp
  refine ⟨_, rfl, ?_, ?_, (b + q) / (2 * (1 / v)), ?_, ?_, ?_⟩
  · simp only
    apply div_nonneg _ (by positivity)
    linarith
  · simp only [Spec.increase]
    field_simp
    nlinarith
  · apply div_nonneg _ (by positivity)
    linarith
  · simp only [Spec.increase]
    field_simp
    nlinarith
  · simp only
    by_cases hx : val c.pars i < (b + q) / (2 * (1 / v))
    · rw [if_pos hx, if_neg (not_le.2 hx)]
    · rw [if_neg hx, if_pos (not_lt.1 hx)]

/-- C125 violated: at the best value (gradient zero) the log likelihood falls, in the quadratic approximation, by only
half of what was asked for: the "one sigma" error (1/2) is smaller than the standard deviation by the square root of two. -/
theorem C125_errors_violates (trunc : ℝ → Int) (c : Cache) (i : Nat) (delta : ℝ) (old : Errors) (ht : c.test = some i)
    (hg : i < c.grad.length) (hp : i < c.pars.length) (hv : 1e-10 ≤ c.cov i i) (hd : 0 < delta) (hb : val c.grad i = 0) :
    ∃ e, signalUncertainty trunc c delta old = .ok (0, e) ∧ Spec.increase (val c.grad i) (1 / c.cov i i) e.pos = delta / 2 ∧
      (delta = 1 / 2 → e.pos ^ 2 = c.cov i i / 2) := by
  obtain ⟨e, h1, h2, h3, _⟩ := C125_errors_partial trunc c i delta old ht hg hp hv hd.le
  have hv0 : 0 < c.cov i i := lt_of_lt_of_le (by norm_num) hv
  refine ⟨e, h1, ?_, ?_⟩
  · rw [hb] at h3 ⊢
    unfold Spec.increase at h3 ⊢
    rw [← h3]
    field_simp
    ring
  · intro h
    rw [hb, h] at h3
    unfold Spec.increase at h3
    field_simp at h3
    linarith

example (trunc : ℝ → Int) : ∃ e, signalUncertainty trunc oneBin (1 / 2) ⟨0, 0⟩ = .ok (0, e) ∧ e.pos ^ 2 = 1 / 2 := by
  obtain ⟨e, h, _, h'⟩ := C125_errors_violates trunc oneBin 0 (1 / 2) ⟨0, 0⟩ rfl (by simp [oneBin]) (by simp [oneBin])
    (by norm_num [oneBin]) (by norm_num) (by simp [oneBin, val])
  exact ⟨e, h, by simpa [oneBin] using h' rfl⟩

/-- C125 violated: for a variance below 1e-10 (standard deviations below 1e-5, in units in which a scan ends at
2.5e-4) no errors are computed: those of before the call are left, and the return code is a quotient; with the gradient zero
even that is undefined. -/
theorem C125_small_violates (trunc : ℝ → Int) (c : Cache) (i : Nat) (delta : ℝ) (old : Errors) (ht : c.test = some i)
    (hg : i < c.grad.length) (hp : i < c.pars.length) (hv : |c.cov i i| < 1e-10) :
    (val c.grad i = 0 → signalUncertainty trunc c delta old = .ub) ∧
      (val c.grad i ≠ 0 → ∃ s, signalUncertainty trunc c delta old = .ok (s, old)) := by
  unfold signalUncertainty
  rw [ht]
  simp only
  rw [vget_val hg, Res.bind_ok, vget_val hp, Res.bind_ok]
  unfold solve
  rw [if_pos hv]
  exact ⟨fun h => by rw [if_pos h], fun h => ⟨_, by rw [if_neg h]⟩⟩

example (trunc : ℝ → Int) : signalUncertainty trunc { oneBin with cov := fun _ _ => 1e-12 } (1 / 2) ⟨0, 0⟩ = .ub :=
  (C125_small_violates trunc { oneBin with cov := fun _ _ => 1e-12 } 0 (1 / 2) ⟨0, 0⟩ rfl (by simp [oneBin]) (by simp [oneBin])
    (by norm_num)).1 (by simp [oneBin, val])

end Verif.ScanNorm
