import Verif.ScanNorm.Model
import Verif.ScanNorm.Spec
import Verif.FitUtils.Deriv
import Mathlib.Tactic.Linarith
import Mathlib.Tactic.Ring
import Mathlib.Tactic.FieldSimp
import Mathlib.Tactic.NormNum
/-
Lemmas for scans of a normalization.
-/
set_option linter.unusedSectionVars false
set_option linter.unusedSimpArgs false
set_option linter.unusedVariables false
namespace Verif.ScanNorm
open FitUtils Newton FitUtils.Spec

/-! ### The loop -/

theorem scanLoop_ok {P : ℝ → Res (Int × ℝ)} {d : ℝ} : ∀ {n : Nat} {x : ℝ} {s : Scan}, scanLoop P d n x = .ok s →
    s.status = 0 → s.norms.length = n ∧ s.logLikes.length = n ∧
      ∀ i < n, val s.norms i = x + i * d ∧ P (x + i * d) = .ok (0, val s.logLikes i)
  | 0, x, s, h, h0 => by
    rw [scanLoop] at h
    cases h
    exact ⟨rfl, rfl, fun i hi => absurd hi (by omega)⟩
  | n + 1, x, s, h, h0 => by
    rw [scanLoop] at h
    obtain ⟨r, hr, h⟩ := Res.bind_eq_ok.1 h
    by_cases hs : r.1 ≠ 0
    · rw [if_pos hs] at h
      cases h
      exact absurd h0 hs
    · rw [if_neg hs] at h
      obtain ⟨s', h', h⟩ := Res.bind_eq_ok.1 h
      cases h
      obtain ⟨a, b, e⟩ := scanLoop_ok h' h0
      refine ⟨by simp [a], by simp [b], ?_⟩
      intro i hi
      cases i with
      | zero =>
        obtain ⟨r1, r2⟩ := r
        have : r1 = 0 := by simpa using hs
        subst this
        simpa [val] using hr
      | succ i =>
        obtain ⟨e1, e2⟩ := e i (by omega)
        have hx : x + ((i + 1 : Nat) : ℝ) * d = x + d + i * d := by push_cast; ring
        rw [hx]
        exact ⟨by simpa [val] using e1, by simpa [val] using e2⟩

theorem scanLoop_total {P : ℝ → Res (Int × ℝ)} {d : ℝ} : ∀ {n : Nat} {x : ℝ}, (∀ i < n, ∃ l, P (x + i * d) = .ok (0, l)) →
    ∃ s, scanLoop P d n x = .ok s ∧ s.status = 0
  | 0, x, _ => ⟨_, rfl, rfl⟩
  | n + 1, x, h => by
    obtain ⟨l, hl⟩ := h 0 (by omega)
    simp only [Nat.cast_zero, zero_mul, add_zero] at hl
    obtain ⟨s, hs, h0⟩ := scanLoop_total (P := P) (d := d) (n := n) (x := x + d) (by
      intro i hi
      obtain ⟨l, hl⟩ := h (i + 1) (by omega)
      refine ⟨l, ?_⟩
      rw [← hl]
      congr 1
      push_cast
      ring)
    rw [scanLoop, hl, Res.bind_ok, if_neg (by simp), hs, Res.bind_ok]
    exact ⟨_, rfl, h0⟩

/-! ### Likelihoods with the test source among the fixed sources -/

theorem fixedTemp_ok {c : Cache} {ts : List (List ℝ)} {t : List ℝ} (hc : Spec.Fits c ts t) (x : ℝ) :
    ∃ ft, fixedTemp c x = .ok ft ∧ ft.length = (Spec.data c).length ∧
      ∀ k, c.first ≤ k → k < c.last → val ft k = val c.fixed k + x * val t k := by
  have hf := hc.fixed
  have h1 := hc.one
  have hin := hc.inside
  obtain ⟨f, f1, f2, f3⟩ := slice_ok (l := c.fixed) hc.range (by omega)
  obtain ⟨g, g1, g2, g3⟩ := slice_ok (l := t) hc.range (by omega)
  obtain ⟨o, o1, o2, _⟩ := slice_ok (l := List.replicate c.fixed.length (0 : ℝ)) hc.range (by simp; omega)
  have hr := hc.range
  unfold fixedTemp
  rw [f1, Res.bind_ok, hc.target, g1, Res.bind_ok, o1, Res.bind_ok]
  unfold vectorAdd
  rw [if_neg (by omega), Res.bind_ok]
  refine ⟨_, rfl, by simp; omega, ?_⟩
  intro k hk hk'
  unfold val
  rw [List.getElem?_append_left (by simp; omega), List.getElem?_append_right (by simp; omega), List.length_replicate]
  have hf3 := f3 (k - c.first) (by omega)
  have hg3 := g3 (k - c.first) (by omega)
  rw [show c.first + (k - c.first) = k by omega] at hf3 hg3
  rw [List.getElem?_eq_getElem (by simp; omega), Option.getD_some, List.getElem_zipWith]
  rw [← val_lt, ← val_lt, hf3, hg3, one_mul]
  rfl

theorem tmplSum_append : ∀ (p : List ℝ) (ts : List (List ℝ)) (x : ℝ) (t : List ℝ) (k : Nat), ts.length = p.length →
    tmplSum (p ++ [x]) (ts ++ [t]) k = tmplSum p ts k + x * val t k
  | [], [], x, t, k, _ => by simp [tmplSum]
  | a :: p, s :: ts, x, t, k, h => by
    simp only [List.cons_append, tmplSum]
    rw [tmplSum_append p ts x t k (by simpa using h)]
    ring

/-- A template with a fixed normalization may be put into the fixed model. -/
theorem ll_shift {data p : List ℝ} {ts : List (List ℝ)} {t fixed ft : List ℝ} {x : ℝ} {prior : Option MVPrior}
    {w : Option (List ℝ)} {s1 s2 : List ℝ} {first last : Nat} (hp : ts.length = p.length) (h1 : fixed.length = data.length)
    (h2 : ft.length = data.length) (h3 : t.length = data.length) (h4 : ∀ s ∈ ts, s.length = data.length)
    (h5 : s1.length = data.length) (h6 : s2.length = data.length) (h7 : first ≤ last) (h8 : 0 < last)
    (h9 : last ≤ data.length) (hv : ∀ k, first ≤ k → k < last → val ft k = val fixed k + x * val t k) :
    getLogLikelihood data p ts ft prior w s1 first last = (do
      let l ← getLogLikelihood data (p ++ [x]) (ts ++ [t]) fixed none w s2 first last
      .ok (l + (prior.map fun q => q.logLikelihood p).getD 0)) := by
  have hst : ∀ n : Nat, rangeStop n last = last := fun n => by unfold rangeStop; rw [if_neg (by omega)]
  obtain ⟨T1, a1, a2, a3⟩ := sumModel_ok (norms := p) (ts := ts) (fixed := ft) (total := s1) (first := first) (last := last)
    (by omega) hp (by rw [hst]; omega) (by rw [hst]; omega) (by intro s hs; rw [hst, h4 s hs]; omega)
  obtain ⟨T2, b1, b2, b3⟩ := sumModel_ok (norms := p ++ [x]) (ts := ts ++ [t]) (fixed := fixed) (total := s2) (first := first)
    (last := last) (by omega) (by simp [hp]) (by rw [hst]; omega) (by rw [hst]; omega) (by
      intro s hs
      rw [hst]
      rcases List.mem_append.1 hs with h | h
      · rw [h4 s h]; omega
      · rw [List.mem_singleton.1 h, h3]; omega)
  obtain ⟨m1, c1, c2, c3⟩ := slice_ok (l := T1) h7 (by omega)
  obtain ⟨m2, d1, d2, d3⟩ := slice_ok (l := T2) h7 (by omega)
  have hm : m1 = m2 := by
    apply ext_val (by omega)
    intro k hk
    rw [c3 k (by omega), d3 k (by omega), a3, b3, hst, hst, if_pos (by omega), if_pos (by omega)]
    unfold modelAt
    rw [tmplSum_append p ts x t _ hp, hv _ (by omega) (by omega)]
    ring
  subst hm
  unfold getLogLikelihood
  rw [a1, b1]
  simp only [Res.bind_ok, hst, c1, d1]
  cases hd : slice data first last with
  | ok d =>
    simp only [Res.bind_ok]
    cases w with
    | none =>
      simp only
      cases logLikePoisson d m1 with
      | ok l => cases prior <;> simp
      | throws => rfl
      | ub => rfl
    | some w =>
      simp only
      cases slice w first last with
      | ok ws =>
        simp only [Res.bind_ok]
        cases logLikePoissonW d m1 ws with
        | ok l => cases prior <;> simp
        | throws => rfl
        | ub => rfl
      | throws => rfl
      | ub => rfl
  | throws => rfl
  | ub => rfl

theorem fitData_eq (c : Cache) : fitData c = Spec.data c := rfl
theorem fitWeights_eq (c : Cache) : fitWeights c = Spec.weights c := rfl

theorem point_direct {inv : List (List ℝ) → Int × (List ℝ → List ℝ)} {svd : List (List ℝ) → ℝ → List ℝ → Int × List ℝ}
    {c : Cache} {t : List ℝ} (hc : Spec.Fits c [] t) (hr : c.useReduced = true) (x : ℝ) :
    point inv svd c x = (do
      let l ← getLogLikelihood (Spec.data c) [x] [t] c.fixed none (Spec.weights c) (List.replicate c.fixed.length 0) c.first c.last
      .ok (0, l)) := by
  obtain ⟨ft, e1, e2, e3⟩ := fixedTemp_ok hc x
  have hf := hc.fixed
  have h1 := hc.one
  have hin := hc.inside
  have hrg := hc.range
  have hst : ∀ n : Nat, rangeStop n c.last = c.last := fun n => by
    unfold rangeStop; rw [if_neg (by have := hc.last; omega)]
  have key := ll_shift (data := Spec.data c) (p := []) (ts := []) (t := t) (fixed := c.fixed) (ft := ft) (x := x) (prior := none)
    (w := Spec.weights c) (s1 := List.replicate c.fixed.length 0) (s2 := List.replicate c.fixed.length 0) (first := c.first)
    (last := c.last) rfl hf e2 h1 (by simp) (by simp; omega) (by simp; omega) hc.range hc.last hin e3
  simp only [List.nil_append, Option.map_none, Option.getD_none, add_zero] at key
  have key' : getLogLikelihood (Spec.data c) [x] [t] c.fixed none (Spec.weights c) (List.replicate c.fixed.length 0) c.first c.last =
      getLogLikelihood (Spec.data c) [] [] ft none (Spec.weights c) (List.replicate c.fixed.length 0) c.first c.last := by
    rw [key]
    cases getLogLikelihood (Spec.data c) [x] [t] c.fixed none (Spec.weights c) (List.replicate c.fixed.length 0) c.first c.last <;> rfl
  rw [key']
  obtain ⟨f, f1, _, _⟩ := slice_ok (l := c.fixed) hc.range (by omega)
  have ht := hc.target
  rw [if_pos hr] at ht
  obtain ⟨g, g1, _, _⟩ := slice_ok (l := t) hc.range (by omega)
  obtain ⟨T, a1, a2, _⟩ := sumModel_ok (norms := []) (ts := []) (fixed := ft) (total := List.replicate c.fixed.length (0 : ℝ))
    (first := c.first) (last := c.last) (by simp; omega) rfl (by rw [hst]; omega) (by rw [hst]; simp; omega) (by simp)
  obtain ⟨d, d1, _, _⟩ := slice_ok (l := Spec.data c) hc.range (by omega)
  obtain ⟨m, m1, _, _⟩ := slice_ok (l := T) hc.range (by rw [a2]; simp; omega)
  unfold point
  rw [e1, Res.bind_ok]
  simp only [hc.models, List.nil_append, List.dropLast_singleton, List.length_nil]
  rw [if_neg (by omega), a1, Res.bind_ok, f1, Res.bind_ok, ht, g1, Res.bind_ok]
  unfold direct getLogLikelihood
  rw [fitData_eq, fitWeights_eq, a1]
  simp only [hst, d1, m1, Res.bind_ok]
  cases Spec.weights c with
  | none =>
    simp only
    cases logLikePoisson d m <;> rfl
  | some w =>
    simp only
    cases slice w c.first c.last with
    | ok ws =>
      simp only [Res.bind_ok]
      cases logLikePoissonW d m ws <;> rfl
    | throws => rfl
    | ub => rfl

theorem ll_length {data p : List ℝ} {ts : List (List ℝ)} {fixed : List ℝ} {prior : Option MVPrior} {w : Option (List ℝ)}
    {s1 : List ℝ} {first last : Nat} {l : ℝ} (h : getLogLikelihood data p ts fixed prior w s1 first last = .ok l) :
    p.length = ts.length := by
  unfold getLogLikelihood at h
  obtain ⟨d, _, h⟩ := Res.bind_eq_ok.1 h
  obtain ⟨m, hm, _⟩ := Res.bind_eq_ok.1 h
  unfold sumModel at hm
  by_contra hne
  split at hm
  · cases hm
  · rw [if_pos (fun e => hne e.symm)] at hm
    cases hm

theorem point_profile {inv : List (List ℝ) → Int × (List ℝ → List ℝ)} {svd : List (List ℝ) → ℝ → List ℝ → Int × List ℝ}
    {c : Cache} {ts : List (List ℝ)} {t : List ℝ} (hc : Spec.Fits c ts t) (hn : ts ≠ []) (x : ℝ) {l : ℝ}
    (h : point inv svd c x = .ok (0, l)) : ∃ (e : Env) (r : FitResult), fitNorms e c.tol c.maxIter c.lambda (c.pars.take ts.length) = .ok r ∧
      r.status = 0 ∧ r.logLike = l ∧
      e.dataTotal = (((Spec.data c).drop c.first).take (c.last - c.first)).sum ∧
      (∀ (p : List ℝ) (m : ℝ), e.ll p = .ok m → p.length = ts.length) ∧
      ∀ p : List ℝ, p.length = ts.length → e.ll p = (do
        let l ← getLogLikelihood (Spec.data c) (p ++ [x]) c.models c.fixed none (Spec.weights c) (List.replicate c.fixed.length 0)
          c.first c.last
        .ok (l + (c.prior.map fun q => q.logLikelihood p).getD 0)) := by
  obtain ⟨ft, e1, e2, e3⟩ := fixedTemp_ok hc x
  have hf := hc.fixed
  have h1 := hc.one
  have hin := hc.inside
  have hpos : 0 < ts.length := List.length_pos_of_ne_nil hn
  unfold point at h
  rw [e1, Res.bind_ok] at h
  simp only [hc.models, List.dropLast_concat] at h
  rw [if_pos hpos, if_neg (by have := hc.pars; omega)] at h
  obtain ⟨r, hr, h⟩ := Res.bind_eq_ok.1 h
  simp only [Res.ok.injEq, Prod.mk.injEq] at h
  refine ⟨_, r, hr, h.1, h.2, ?_, fun p m hm => ll_length hm, ?_⟩
  · unfold env
    simp only
    rw [fitData_eq, show rangeStop (Spec.data c).length c.last = c.last by
      unfold rangeStop; rw [if_neg (by have := hc.last; omega)], foldl_sum, zero_add]
  · intro p hp
    show getLogLikelihood (Spec.data c) p ts ft c.prior (Spec.weights c) (List.replicate ft.length 0) c.first c.last = _
    rw [hc.models]
    exact ll_shift hp.symm hf e2 h1 hc.others (by simp; omega) (by simp; omega) hc.range hc.last hin e3

end Verif.ScanNorm
