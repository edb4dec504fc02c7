import Mathlib.Algebra.Order.Field.Basic
import Mathlib.Tactic.NormNum
import Mathlib.Tactic.Positivity
import Mathlib.Tactic.FieldSimp
import Verif.FitOut.Lemmas
/-
C108: the ranges of energies reported by the check of the fit.
-/
set_option linter.unusedSectionVars false
set_option linter.unusedSimpArgs false
set_option linter.unusedVariables false

namespace Verif.FitOut

open Verif

/-! ### the ranges as pairs of indices -/

/-- The ranges with indices for the energies. -/
def runs : List Bool → Nat → Option Nat → List (Nat × Nat)
  | [], _, none => []
  | [], k, some lo => [(lo, k)]
  | true :: bs, k, none => runs bs (k + 1) (some k)
  | true :: bs, k, some lo => runs bs (k + 1) (some lo)
  | false :: bs, k, none => runs bs (k + 1) none
  | false :: bs, k, some lo => (lo, k) :: runs bs (k + 1) none

theorem ranges_eq (E : List ℝ) (bs : List Bool) (k : Nat) (o : Option Nat)
    (h : k + bs.length < E.length) :
    ranges E bs k (o.map (fun i => E[i]?.getD 0)) =
      .ok ((runs bs k o).map (fun x => (E[x.1]?.getD 0, E[x.2]?.getD 0))) := by
  induction bs generalizing k o with
  | nil =>
    cases o with
    | none => rfl
    | some lo =>
      show (match E[k]? with | some hi => _ | none => _) = _
      rw [List.getElem?_eq_getElem (by simpa using h)]
      simp only [runs, List.map_cons, List.map_nil]
      rw [List.getElem?_eq_getElem (i := k) (by simpa using h)]
      rfl
  | cons b bs ih =>
    have hk : k < E.length := by rw [List.length_cons] at h; omega
    have h' : k + 1 + bs.length < E.length := by rw [List.length_cons] at h; omega
    cases b with
    | true =>
      cases o with
      | none =>
        rw [runs, ← ih (k + 1) (some k) h']
        show (match E[k]? with | some lo => _ | none => _) = _
        rw [List.getElem?_eq_getElem hk]
        simp only [Option.map_some]
        rw [List.getElem?_eq_getElem hk]
        rfl
      | some lo => exact ih (k + 1) (some lo) h'
    | false =>
      cases o with
      | none => exact ih (k + 1) none h'
      | some lo =>
        show (match E[k]? with | some hi => _ | none => _) = _
        rw [List.getElem?_eq_getElem hk]
        simp only
        have := ih (k + 1) none h'
        rw [Option.map_none] at this
        rw [this, Res.bind_ok, runs, List.map_cons]
        simp only
        rw [List.getElem?_eq_getElem hk]
        rfl

/-- A range is a maximal run of bad bins between `k` and `n`. -/
def Run (b : Nat → Bool) (n : Nat) (x : Nat × Nat) : Prop :=
  x.1 < x.2 ∧ x.2 ≤ n ∧ (∀ t, x.1 ≤ t → t < x.2 → b t = true) ∧ (x.2 = n ∨ b x.2 = false) ∧
    (x.1 = 0 ∨ b (x.1 - 1) = false)

theorem runs_ok (b : Nat → Bool) (n : Nat) (bs : List Bool) (k : Nat) (o : Option Nat)
    (hn : k + bs.length = n) (hb : ∀ t, t < bs.length → bs[t]? = some (b (k + t)))
    (h0 : o = none → k = 0 ∨ b (k - 1) = false)
    (h1 : ∀ lo, o = some lo → lo < k ∧ (∀ t, lo ≤ t → t < k → b t = true) ∧
      (lo = 0 ∨ b (lo - 1) = false)) :
    (∀ x ∈ runs bs k o, Run b n x) ∧
    (∀ t, (o.getD k) ≤ t → t < n → b t = true → ∃ x ∈ runs bs k o, x.1 ≤ t ∧ t < x.2) ∧
    (∀ x ∈ runs bs k o, o.getD k ≤ x.1) ∧
    (runs bs k o).Pairwise (fun x y => x.2 < y.1) := by
  induction bs generalizing k o with
  | nil =>
    have hk : k = n := by simpa using hn
    cases o with
    | none =>
      refine ⟨by simp [runs], ?_, by simp [runs], by simp [runs]⟩
      intro t ht1 ht2
      simp at ht1
      omega
    | some lo =>
      obtain ⟨ha, hc, hd⟩ := h1 lo rfl
      refine ⟨?_, ?_, by simp [runs], by simp [runs]⟩
      · intro x hx
        simp [runs] at hx
        rw [hx]
        exact ⟨ha, le_of_eq hk, hc, Or.inl hk, hd⟩
      · intro t ht1 ht2 ht3
        exact ⟨(lo, k), by simp [runs], by simpa using ht1, by simp only; omega⟩
  | cons c bs ih =>
    have hn' : k + 1 + bs.length = n := by rw [List.length_cons] at hn; omega
    have hb' : ∀ t, t < bs.length → bs[t]? = some (b (k + 1 + t)) := by
      intro t ht
      have := hb (t + 1) (by simpa using ht)
      rw [List.getElem?_cons_succ] at this
      rw [this]; congr 2; omega
    have hbk : b k = c := by
      have := hb 0 (by simp)
      simpa using this.symm
    cases c with
    | true =>
      cases o with
      | none =>
        have hi := ih (k + 1) (some k) hn' hb' (by intro h; cases h) (by
          intro lo hlo
          cases hlo
          refine ⟨by omega, ?_, h0 rfl⟩
          intro t h1 h2
          rw [show t = k by omega]; exact hbk)
        exact hi
      | some lo =>
        obtain ⟨ha, hc, hd⟩ := h1 lo rfl
        have hi := ih (k + 1) (some lo) hn' hb' (by intro h; cases h) (by
          intro lo' hlo
          cases hlo
          refine ⟨by omega, ?_, hd⟩
          intro t h1 h2
          by_cases htk : t = k
          · rw [htk]; exact hbk
          · exact hc t h1 (by omega))
        exact hi
    | false =>
      have hi := ih (k + 1) none hn' hb' (fun _ => Or.inr (by simpa using hbk))
        (fun lo h => by cases h)
      obtain ⟨i1, i2, i3, i4⟩ := hi
      simp only [Option.getD_none] at i2 i3
      cases o with
      | none =>
        refine ⟨i1, ?_, ?_, i4⟩
        · intro t ht1 ht2 ht3
          simp only [Option.getD_none] at ht1
          have : t ≠ k := by rintro rfl; rw [hbk] at ht3; cases ht3
          exact i2 t (by omega) ht2 ht3
        · intro x hx
          have := i3 x hx
          simp only [Option.getD_none]; omega
      | some lo =>
        obtain ⟨ha, hc, hd⟩ := h1 lo rfl
        rw [runs]
        refine ⟨?_, ?_, ?_, ?_⟩
        · intro x hx
          rcases List.mem_cons.1 hx with rfl | hx
          · exact ⟨ha, by simp only; omega, hc, Or.inr hbk, hd⟩
          · exact i1 x hx
        · intro t ht1 ht2 ht3
          simp only [Option.getD_some] at ht1
          by_cases htk : t < k
          · exact ⟨(lo, k), List.mem_cons_self, ht1, htk⟩
          · have : t ≠ k := by rintro rfl; rw [hbk] at ht3; cases ht3
            obtain ⟨x, hx, hx'⟩ := i2 t (by omega) ht2 ht3
            exact ⟨x, List.mem_cons_of_mem _ hx, hx'⟩
        · intro x hx
          simp only [Option.getD_some]
          rcases List.mem_cons.1 hx with rfl | hx
          · exact le_refl _
          · have := i3 x hx; omega
        · refine List.pairwise_cons.2 ⟨?_, i4⟩
          intro y hy
          have := i3 y hy
          simp only; omega

/-! ### the bins -/

open Classical in
theorem judge_ok (sig : ℝ → ℝ → ℝ) (f : ℝ → ℝ → Option ℝ) (c m : ℝ)
    (hf : 0 < c → f c m = some (sig c m)) :
    ∃ r, judge f c m = .ok r ∧ (r.1 < r.2 ↔ Spec.Poor sig c m) := by
  unfold judge Spec.Poor
  by_cases hc : 0 < c
  · rw [if_pos hc, hf hc]
    refine ⟨_, rfl, ?_⟩
    constructor
    · intro h; exact Or.inl ⟨hc, h⟩
    · rintro (h | h)
      · exact h.2
      · exact absurd hc (not_lt.2 h.1)
  · rw [if_neg hc]
    by_cases hm : 0 < m
    · rw [if_pos hm]
      refine ⟨_, rfl, ?_⟩
      simp only
      rw [div_lt_iff₀ hm]
      constructor
      · intro h; exact Or.inr ⟨not_lt.1 hc, by linarith⟩
      · rintro (h | h)
        · exact absurd h.1 hc
        · linarith [h.2]
    · rw [if_neg hm]
      refine ⟨_, rfl, ?_⟩
      simp only
      constructor
      · intro h; norm_num at h
      · rintro (h | h)
        · exact absurd h.1 hc
        · exact absurd (lt_trans (by norm_num) h.2) hm

open Classical in
theorem judgeAll_ok (sig : ℝ → ℝ → ℝ) (f : ℝ → ℝ → Option ℝ) (cs ms : List ℝ)
    (hl : cs.length = ms.length)
    (hf : ∀ k : Nat, 0 < cs[k]?.getD 0 →
      f (cs[k]?.getD 0) (ms[k]?.getD 0) = some (sig (cs[k]?.getD 0) (ms[k]?.getD 0))) :
    judgeAll f cs ms = .ok ((List.range ms.length).map
      (fun k => decide (Spec.Poor sig (cs[k]?.getD 0) (ms[k]?.getD 0)))) := by
  induction cs generalizing ms with
  | nil =>
    cases ms with
    | nil => rfl
    | cons m ms => simp at hl
  | cons c cs ih =>
    cases ms with
    | nil => simp at hl
    | cons m ms =>
      obtain ⟨r, h1, h2⟩ := judge_ok sig f c m (by simpa using hf 0)
      rw [judgeAll, h1, Res.bind_ok, ih ms (by simpa using hl) (fun k => by
        have := hf (k + 1)
        rw [List.getElem?_cons_succ, List.getElem?_cons_succ] at this
        exact this), Res.bind_ok, List.length_cons, List.range_succ_eq_map, List.map_cons,
        List.map_map]
      congr 2
      simp only [List.getElem?_cons_zero, Option.getD_some]
      exact decide_eq_decide.2 h2

/-- **C108.** The ranges of energies that are reported are those of the maximal runs of bins
in which the fit is poor: they cover all of these and no other bins, they are in order and
between two of them there is a bin that is not poor. -/
theorem C108_quality_partial (sig : ℝ → ℝ → ℝ) (f : ℝ → ℝ → Option ℝ)
    (E counts mean : List ℝ) (hl : counts.length = mean.length)
    (hE : E.length = mean.length + 1)
    (hs : ∀ i j : Nat, i < j → j < E.length → E[i]?.getD 0 < E[j]?.getD 0)
    (hf : ∀ k : Nat, 0 < counts[k]?.getD 0 → f (counts[k]?.getD 0) (mean[k]?.getD 0) =
      some (sig (counts[k]?.getD 0) (mean[k]?.getD 0))) :
    ∃ r, quality f E counts mean = .ok r ∧
      (∀ k : Nat, k < mean.length → (Spec.Poor sig (counts[k]?.getD 0) (mean[k]?.getD 0) ↔
        ∃ x ∈ r, x.1 ≤ E[k]?.getD 0 ∧ E[k + 1]?.getD 0 ≤ x.2)) ∧
      (∀ x ∈ r, x.1 ∈ E ∧ x.2 ∈ E ∧ x.1 < x.2) ∧ r.Pairwise (fun x y => x.2 < y.1) := by
  classical
  set b : Nat → Bool := fun k => decide (Spec.Poor sig (counts[k]?.getD 0) (mean[k]?.getD 0))
    with hb
  have h1 := judgeAll_ok sig f counts mean hl hf
  have h2 := ranges_eq E ((List.range mean.length).map b) 0 none (by simp; omega)
  rw [Option.map_none] at h2
  have h3 := runs_ok b mean.length ((List.range mean.length).map b) 0 none (by simp)
    (fun t ht => by
      rw [List.length_map, List.length_range] at ht
      rw [List.getElem?_map, List.getElem?_range ht, zero_add]; rfl)
    (fun _ => Or.inl rfl) (fun lo h => by cases h)
  obtain ⟨r1, r2, _, r4⟩ := h3
  have hle : ∀ i j, i ≤ j → j < E.length → E[i]?.getD 0 ≤ E[j]?.getD 0 := by
    intro i j hij hj
    rcases Nat.lt_or_eq_of_le hij with h | h
    · exact le_of_lt (hs i j h hj)
    · rw [h]
  refine ⟨(runs ((List.range mean.length).map b) 0 none).map
    (fun x => (E[x.1]?.getD 0, E[x.2]?.getD 0)), ?_, ?_, ?_, ?_⟩
  · unfold quality
    rw [h1]
    simp only
    rw [h2]
  · intro k hk
    constructor
    · intro hp
      obtain ⟨x, hx, hx1, hx2⟩ := r2 k (Nat.zero_le _) hk (decide_eq_true hp)
      have hr := (r1 x hx).2.1
      exact ⟨_, List.mem_map.2 ⟨x, hx, rfl⟩, hle _ _ hx1 (by omega), hle _ _ hx2 (by omega)⟩
    · rintro ⟨y, hy, hy1, hy2⟩
      obtain ⟨x, hx, rfl⟩ := List.mem_map.1 hy
      have hr := r1 x hx
      have e1 : x.1 ≤ k := by
        by_contra hne
        have h5 := hr.1
        have h6 := hr.2.1
        exact absurd (hs k x.1 (by omega) (by omega)) (not_lt.2 hy1)
      have e2 : k < x.2 := by
        by_contra hne
        exact absurd (hs x.2 (k + 1) (by omega) (by omega)) (not_lt.2 hy2)
      exact of_decide_eq_true (hr.2.2.1 k e1 e2)
  · intro y hy
    obtain ⟨x, hx, rfl⟩ := List.mem_map.1 hy
    have hr := r1 x hx
    have h5 := hr.1
    have h6 := hr.2.1
    simp only
    rw [List.getElem?_eq_getElem (show x.1 < E.length by omega),
      List.getElem?_eq_getElem (show x.2 < E.length by omega)]
    have := hs x.1 x.2 h5 (by omega)
    rw [List.getElem?_eq_getElem (show x.1 < E.length by omega),
      List.getElem?_eq_getElem (show x.2 < E.length by omega)] at this
    exact ⟨List.getElem_mem _, List.getElem_mem _, this⟩
  · rw [List.pairwise_map]
    refine List.Pairwise.imp_of_mem ?_ r4
    intro x y hx hy hxy
    have hr := r1 y hy
    have h5 := hr.1
    have h6 := hr.2.1
    exact hs x.2 y.1 hxy (by omega)

/-! ### many counts -/

/-- With `x = a ≥ 10⁹` the series of `gser` does not converge in the turns it has: `k` turns
are done, `n` are left. -/
theorem gserLoop_none (a : ℝ) (ha : 10 ^ 9 ≤ a) (n k : Nat) (hk : k + n = 10000) (del sum : ℝ)
    (h1 : (1 - (k : ℝ) * (10 ^ 4 / a)) / a ≤ del) (h2 : 0 < sum) (h3 : sum ≤ (k + 1) / a)
    (h4 : del ≤ 1 / a) :
    gserLoop a n (a + k) del sum = none := by
  have ha0 : 0 < a := lt_of_lt_of_le (by norm_num) ha
  induction n generalizing k del sum with
  | zero => rfl
  | succ n ih =>
    have hk1 : (k : ℝ) + 1 ≤ 10 ^ 4 := by
      have : k + 1 ≤ 10000 := by omega
      have h := (Nat.cast_le (α := ℝ)).2 this
      push_cast at h
      linarith
    have hk0 : (0 : ℝ) ≤ k := Nat.cast_nonneg k
    set q := a / (a + k + 1) with hq
    have hden : 0 < a + k + 1 := by linarith
    have hq1 : q ≤ 1 := by rw [hq, div_le_one hden]; linarith
    have hq0 : 0 < q := div_pos ha0 hden
    have hqd : 1 - 10 ^ 4 / a ≤ q := by
      rw [hq, le_div_iff₀ hden, sub_mul, one_mul]
      have : 10 ^ 4 / a * (a + k + 1) = 10 ^ 4 + 10 ^ 4 / a * (k + 1) := by field_simp; ring
      rw [this]
      have : 0 ≤ 10 ^ 4 / a * ((k : ℝ) + 1) := by positivity
      linarith
    have hsmall : 10 ^ 4 / a ≤ 1 / 10 ^ 5 := by
      rw [div_le_div_iff₀ ha0 (by norm_num)]; linarith
    have hpos : 0 < 10 ^ 4 / a := by positivity
    have hkk : (k + 1 : ℝ) * (10 ^ 4 / a) ≤ 1 / 10 := by
      calc (k + 1 : ℝ) * (10 ^ 4 / a) ≤ 10 ^ 4 * (1 / 10 ^ 5) := by
            apply mul_le_mul hk1 hsmall (le_of_lt hpos) (by norm_num)
        _ = 1 / 10 := by norm_num
    have hc : 0 < 1 - (k : ℝ) * (10 ^ 4 / a) := by
      have : (k : ℝ) * (10 ^ 4 / a) ≤ (k + 1) * (10 ^ 4 / a) := by nlinarith
      linarith
    have hdel0 : 0 < del := lt_of_lt_of_le (div_pos hc ha0) h1
    have hd1 : (1 - ((k + 1 : ℕ) : ℝ) * (10 ^ 4 / a)) / a ≤ del * q := by
      push_cast
      have e1 : (1 - ((k : ℝ) + 1) * (10 ^ 4 / a)) / a ≤
          (1 - (k : ℝ) * (10 ^ 4 / a)) / a * (1 - 10 ^ 4 / a) := by
        rw [div_mul_eq_mul_div]
        apply div_le_div_of_nonneg_right _ (le_of_lt ha0)
        nlinarith [mul_nonneg (mul_nonneg hk0 (le_of_lt hpos)) (le_of_lt hpos)]
      have e2 : (1 - (k : ℝ) * (10 ^ 4 / a)) / a * (1 - 10 ^ 4 / a) ≤ del * q :=
        mul_le_mul h1 hqd (by linarith) (le_of_lt hdel0)
      linarith
    have hd4 : del * q ≤ 1 / a := by nlinarith
    have hd0 : 0 < del * q := mul_pos hdel0 hq0
    have hs3 : sum + del * q ≤ ((k + 1 : ℕ) + 1) / a := by
      push_cast
      have : ((k : ℝ) + 1 + 1) / a = (k + 1) / a + 1 / a := by ring
      rw [this]; linarith
    rw [gserLoop, ← hq, if_neg, show a + (k : ℝ) + 1 = a + ((k + 1 : ℕ) : ℝ) by push_cast; ring]
    · exact ih (k + 1) (by omega) (del * q) (sum + del * q) hd1 (by linarith) hs3 hd4
    · rw [abs_of_pos hd0, abs_of_pos (by linarith), not_lt]
      have e1 : (sum + del * q) * 3.0e-7 ≤ 10001 / a * 3.0e-7 := by
        apply mul_le_mul_of_nonneg_right _ (by norm_num)
        refine hs3.trans ?_
        apply div_le_div_of_nonneg_right _ (le_of_lt ha0)
        push_cast
        linarith
      have e2 : (9 / 10) / a ≤ del * q := by
        refine le_trans ?_ hd1
        apply div_le_div_of_nonneg_right _ (le_of_lt ha0)
        push_cast
        linarith
      refine e1.trans (le_trans ?_ e2)
      rw [div_mul_eq_mul_div]
      apply div_le_div_of_nonneg_right _ (le_of_lt ha0)
      norm_num

/-- The significance of a bin in which as many counts are expected as observed throws if
there are too many. -/
theorem poissonSig_none (gln : ℝ → ℝ) (gcf : ℝ → ℝ → ℝ) (a : ℝ) (ha : 10 ^ 9 ≤ a) :
    poissonSig gln gcf a a = none := by
  have ha0 : 0 < a := lt_of_lt_of_le (by norm_num) ha
  have hg : gammq gln gcf a a = none := by
    unfold gammq gser
    rw [if_neg (by push Not; exact ⟨le_of_lt ha0, ha0⟩), if_pos (by linarith),
      if_neg (not_le.2 ha0)]
    have := gserLoop_none a ha 10000 0 rfl (1 / a) (1 / a) (by simp) (by positivity) (by simp)
      (le_refl _)
    rw [Nat.cast_zero, add_zero] at this
    rw [this]
    rfl
  unfold poissonSig
  rw [if_neg (lt_irrefl a), if_pos (by linarith), hg]
  rfl

/-- **C108 is violated** in a bin with very many counts: no range is reported at all, although
in another bin a hundred counts were expected and none was observed. -/
theorem C108_quality_violates (gln : ℝ → ℝ) (gcf : ℝ → ℝ → ℝ) (sig : ℝ → ℝ → ℝ) :
    Spec.Poor sig 0 100 ∧
      quality (poissonSig gln gcf) [1, 2, 3] [0, 10 ^ 9] [100, 10 ^ 9] = .ok [] := by
  refine ⟨Or.inr ⟨le_refl _, by norm_num⟩, ?_⟩
  have h1 : judge (poissonSig gln gcf) 0 100 = .ok (1 / 100, 0.5) := by
    unfold judge
    rw [if_neg (lt_irrefl 0), if_pos (by norm_num)]
  have h2 : judge (poissonSig gln gcf) (10 ^ 9) (10 ^ 9) = .throws := by
    unfold judge
    rw [if_pos (by norm_num), poissonSig_none gln gcf (10 ^ 9) (le_refl _)]
  unfold quality
  rw [judgeAll, h1, Res.bind_ok, judgeAll, h2]
  rfl

-- the hypotheses of `C108_quality_partial` are met by three bins, two of them poor
example : ∃ r, quality (fun _ _ => some 1) [1, 2, 3, 4] [0, 5, 0] [9, 5, 7] = .ok r ∧
    (∀ k : Nat, k < 3 → (Spec.Poor (fun _ _ => 1) (([0, 5, 0] : List ℝ)[k]?.getD 0)
      (([9, 5, 7] : List ℝ)[k]?.getD 0) ↔
        ∃ x ∈ r, x.1 ≤ ([1, 2, 3, 4] : List ℝ)[k]?.getD 0 ∧
          ([1, 2, 3, 4] : List ℝ)[k + 1]?.getD 0 ≤ x.2)) := by
  obtain ⟨r, h1, h2, _⟩ := C108_quality_partial (fun _ _ => 1) (fun _ _ => some 1) [1, 2, 3, 4]
    [0, 5, 0] [9, 5, 7] rfl rfl (by
      intro i j hij hj
      simp only [List.length_cons, List.length_nil] at hj
      have : (i = 0 ∧ j = 1) ∨ (i = 0 ∧ j = 2) ∨ (i = 0 ∧ j = 3) ∨ (i = 1 ∧ j = 2) ∨
        (i = 1 ∧ j = 3) ∨ (i = 2 ∧ j = 3) := by omega
      rcases this with ⟨rfl, rfl⟩ | ⟨rfl, rfl⟩ | ⟨rfl, rfl⟩ | ⟨rfl, rfl⟩ | ⟨rfl, rfl⟩ | ⟨rfl, rfl⟩ <;>
        norm_num) (fun _ _ => rfl)
  exact ⟨r, h1, h2⟩
example : Spec.Poor (fun _ _ => 1) 0 9 := Or.inr ⟨le_refl _, by norm_num⟩

end Verif.FitOut
