import Verif.Pieces.Lemmas
import Mathlib.Analysis.Calculus.Deriv.Add
import Mathlib.Tactic.NormNum
set_option linter.unusedSimpArgs false
set_option linter.unusedVariables false
/-
C29: the multiply broken power law.
-/
namespace Verif.Pieces
open Verif.Spectra Verif.Vec

variable {b : List ℝ} {x : ℝ}

theorem check_ok {v : List ℝ} : checkIncreasing v = .ok () ↔ v.Pairwise (· < ·) := by
  unfold checkIncreasing
  have gen : ∀ n lo, lo + n = v.length →
      (loop (checkBody v) lo n () = .ok () ↔ ∀ i, lo ≤ i → 0 < i → i < v.length → val v (i - 1) < val v i) := by
    intro n
    induction n with
    | zero =>
      intro lo hlo
      simp only [loop, true_iff]
      intro i h1 h2 h3; omega
    | succ n ih =>
      intro lo hlo
      have hl : lo < v.length := by omega
      have hl' : lo - 1 < v.length := by omega
      simp only [loop, checkBody, vget_val hl, vget_val hl', Res.bind_ok]
      by_cases h0 : 0 < lo
      · by_cases hlt : val v (lo - 1) < val v lo
        · simp only [h0, hlt, not_true_eq_false, ↓reduceIte, Res.bind_ok]
          rw [ih (lo + 1) (by omega)]
          constructor
          · intro h i h1 h2 h3
            rcases Nat.eq_or_lt_of_le h1 with e | e
            · subst e; exact hlt
            · exact h i e h2 h3
          · intro h i h1 h2 h3; exact h i (by omega) h2 h3
        · simp only [h0, hlt, not_false_eq_true, ↓reduceIte, Res.bind_throws, reduceCtorEq, false_iff]
          intro h; exact hlt (h lo le_rfl h0 hl)
      · simp only [h0, ↓reduceIte, Res.bind_ok]
        rw [ih (lo + 1) (by omega)]
        constructor
        · intro h i h1 h2 h3; exact h i (by omega) h2 h3
        · intro h i h1 h2 h3; exact h i (by omega) h2 h3
  rw [gen v.length 0 (by omega), pairwise_val]
  constructor
  · intro h i j hij hj
    induction j with
    | zero => omega
    | succ j ih =>
      have h1 := h (j + 1) (by omega) (by omega) hj
      simp only [Nat.add_sub_cancel] at h1
      rcases Nat.eq_or_lt_of_le (Nat.le_of_lt_succ hij) with e | e
      · rw [e]; exact h1
      · exact (ih e (by omega)).trans h1
  · intro h i _ h2 h3; exact h (i - 1) i (by omega) h3

theorem check_cases (v : List ℝ) : checkIncreasing v = .ok () ∨ checkIncreasing v = .throws := by
  unfold checkIncreasing
  have gen : ∀ n lo, lo + n = v.length →
      (loop (checkBody v) lo n () = .ok () ∨ loop (checkBody v) lo n () = (.throws : Res Unit)) := by
    intro n
    induction n with
    | zero => intro lo _; exact .inl rfl
    | succ n ih =>
      intro lo hlo
      have hl : lo < v.length := by omega
      have hl' : lo - 1 < v.length := by omega
      simp only [loop, checkBody, vget_val hl, vget_val hl', Res.bind_ok]
      by_cases h0 : 0 < lo
      · by_cases hlt : val v (lo - 1) < val v lo
        · simp only [h0, hlt, not_true_eq_false, ↓reduceIte, Res.bind_ok]
          exact ih (lo + 1) (by omega)
        · simp only [h0, hlt, not_false_eq_true, ↓reduceIte, Res.bind_throws]
          exact .inr trivial
      · simp only [h0, ↓reduceIte, Res.bind_ok]
        exact ih (lo + 1) (by omega)
  exact gen _ 0 (by omega)

/-- What is accepted: one index more than breaks, and increasing breaks. -/
theorem C29_accepted (idx b : List ℝ) :
    (MBPL.addParams idx b = .ok b ↔ idx.length = b.length + 1 ∧ b.Pairwise (· < ·)) ∧
    (¬ (idx.length = b.length + 1 ∧ b.Pairwise (· < ·)) → MBPL.addParams idx b = .throws) := by
  unfold MBPL.addParams
  by_cases hl : idx.length = b.length + 1
  · simp only [hl, ne_eq, not_true_eq_false, ↓reduceIte, true_and]
    rcases check_cases b with h | h
    · simp [h, check_ok.mp h]
    · have : ¬ b.Pairwise (· < ·) := fun hp => by rw [check_ok.mpr hp] at h; cases h
      simp [h, this]
  · simp [hl]

example : MBPL.addParams [1, 2, 3] [10, 100] = .ok [10, 100] :=
  (C29_accepted _ _).1.mpr ⟨rfl, by norm_num⟩

/-- A single index and no break is accepted, and then the value reads outside a vector. -/
theorem C29_no_break_violates (g x : ℝ) (p : Pars) :
    MBPL.addParams [g] [] = .ok [] ∧ MBPL.value [] p x = .ub :=
  ⟨(C29_accepted _ _).1.mpr ⟨rfl, by simp⟩, rfl⟩

/-- The indices, in order. -/
def indices (p : Pars) (j : Nat) : ℝ := (p (j + 1)).tv

theorem norm_eq (h : Increasing b) (hb : b ≠ []) (p : Pars) {k : Nat} (hk : k ≤ b.length) (hk0 : 1 ≤ k) :
    MBPL.norm b p k = .ok ((p 0).tv * Real.exp (∑ j ∈ Finset.range k, indices p j *
      (Real.log (val b j) - Real.log (val b (j - 1))) -
        indices p k * (Real.log (val b (k - 1)) - Real.log (val b 0)))) := by
  have hn : 0 < b.length := List.length_pos_iff.mpr hb
  have h0 := bpos h hn
  let T : Nat → ℝ := fun K => (p 0).tv * Real.exp (∑ j ∈ Finset.range K, indices p j *
      (Real.log (val b j) - Real.log (val b (j - 1))) -
        indices p K * (Real.log (val b (K - 1)) - Real.log (val b 0)))
  have hT1 : T 1 = (p 0).tv := by simp [T]
  unfold MBPL.norm
  by_cases h1 : k ≤ 1
  · obtain rfl : k = 1 := by omega
    rw [if_pos le_rfl]; exact congrArg _ hT1.symm
  · rw [if_neg h1, vget_val hn, Res.bind_ok]
    have := loop_eq (σ := ℝ) (body := fun m my_norm => do
      let xm ← vget b m
      .ok (my_norm * (xm / val b 0) ^ ((p (m + 1)).tv - (p (m + 2)).tv))) T (lo := 1) (n := k - 1) (fun m hm hm' => by
        have hl : m < b.length := by omega
        have hm0 := bpos h hl
        rw [vget_val hl, Res.bind_ok, Real.rpow_def_of_pos (div_pos hm0 h0), Real.log_div hm0.ne' h0.ne']
        simp only [T]
        rw [mul_assoc, ← Real.exp_add, Finset.sum_range_succ]
        simp only [Nat.add_sub_cancel, indices]
        congr 3
        ring)
    rw [hT1] at this
    rw [this]
    have e : 1 + (k - 1) = k := by omega
    rw [e]

theorem mbpl_value (h : Increasing b) (hb : b ≠ []) (p : Pars) (hx : 0 < x) :
    MBPL.value b p x = .ok ((p 0).tv * shape b (indices p) x) := by
  have hn : 0 < b.length := List.length_pos_iff.mpr hb
  have h0 := bpos h hn
  simp only [MBPL.value, vget_val hn, Res.bind_ok]
  rw [shape, sum_seg h hb hx (upperBound_le b x) (inSeg_upper h), Real.rpow_def_of_pos (div_pos hx h0),
    Real.log_div hx.ne' h0.ne']
  by_cases hk : 1 ≤ upperBound b x
  · rw [norm_eq h hb p (upperBound_le b x) hk, Res.bind_ok, mul_assoc, ← Real.exp_add]
    simp only [indices]
    congr 3; ring
  · have e : upperBound b x = 0 := by omega
    rw [e]
    simp only [MBPL.norm, Nat.zero_le, ↓reduceIte, Res.bind_ok, Finset.range_zero, Finset.sum_empty, indices, zero_add,
      Nat.zero_sub]
    congr 3; ring

/-- The value exists; it is a power law with the given index in each range, has the value
of the normalisation at the first break, and is continuous. -/
theorem C29_pieces (h : Increasing b) (hb : b ≠ []) (p : Pars) :
    ∃ f : ℝ → ℝ, (∀ x, 0 < x → MBPL.value b p x = .ok (f x)) ∧
      PowerPieces b (fun j => (p (j + 1)).tv) f ∧ b.head?.map f = some (p 0).tv ∧
      ∀ x, 0 < x → ContinuousAt f x := by
  refine ⟨fun x => (p 0).tv * shape b (indices p) x, fun x hx => mbpl_value h hb p hx,
    pieces_shape h hb _ _, ?_, fun x hx => continuousAt_const.mul (shape_continuousAt h hb hx _)⟩
  have hh : b.head? = some (val b 0) := by
    rw [List.head?_eq_getElem?]; exact getElem?_val (List.length_pos_iff.mpr hb)
  rw [hh, Option.map_some, shape_first h hb, mul_one]

theorem exInc : Increasing [10, 100, 1000] := by
  constructor
  · simp; norm_num
  · simp

example : ∃ f : ℝ → ℝ, (∀ x, 0 < x → MBPL.value [10, 100, 1000] (fun i => ⟨[5, -1, -2, -3, -4].getD i 0, 2⟩) x = .ok (f x)) ∧
    ContinuousAt f 100 := by
  obtain ⟨f, h1, -, -, h2⟩ := C29_pieces exInc (by simp) (fun i => ⟨[5, -1, -2, -3, -4].getD i 0, 2⟩)
  exact ⟨f, h1, h2 100 (by norm_num)⟩

/-- The true derivative by an index. -/
theorem shape_partial (p : Pars) {j : Nat} (hj : j ≤ b.length) :
    Partial (fun q => (q 0).tv * shape b (indices q) x) p (j + 1)
      ((p 0).tv * shape b (indices p) x * ell b x j * (p (j + 1)).scale) := by
  unfold Partial
  have h1 : ∀ i ∈ Finset.range (b.length + 1), HasDerivAt (fun t => indices (setv p (j + 1) t) i * ell b x i)
      (if i = j then (p (j + 1)).scale * ell b x j else 0) (p (j + 1)).value := by
    intro i _
    by_cases hij : i = j
    · subst hij
      simp only [if_pos, indices, setv, Function.update_self, P.tv]
      exact (lin _ _).mul_const _
    · have : ∀ t, indices (setv p (j + 1) t) i = indices p i := by
        intro t
        simp only [indices, setv, Function.update_of_ne (show i + 1 ≠ j + 1 by omega)]
      simp only [this, if_neg hij]
      exact hasDerivAt_const _ _
  have h2 := (ex (HasDerivAt.fun_sum h1)).const_mul (p 0).tv
  rw [Finset.sum_ite_eq' (Finset.range (b.length + 1)) j, if_pos (by simp; omega)] at h2
  simp only [setv_self] at h2
  have e : ∀ t, (setv p (j + 1) t 0).tv = (p 0).tv := by
    intro t; simp only [setv, Function.update_of_ne (show 0 ≠ j + 1 by omega)]
  simp only [e]
  refine h2.congr_deriv ?_
  rw [shape]; ring

theorem partial_unique {f : Pars → ℝ} {p : Pars} {i : Nat} {d e : ℝ} (h1 : Partial f p i d) (h2 : Partial f p i e) :
    d = e := HasDerivAt.unique h1 h2

/-- What is reported for an index. -/
theorem mbpl_deriv (h : Increasing b) (hb : b ≠ []) (p : Pars) (hx : 0 < x) {j : Nat} (hj : j ≤ b.length) :
    MBPL.deriv b p (j + 1) x = .ok ((p 0).tv * shape b (indices p) x * ell b x j *
      (if 1 ≤ j ∧ j = upperBound b x then (p (j + 1)).scale else 1)) ∨
    (ell b x j = 0 ∧ MBPL.deriv b p (j + 1) x = .ok 0) := by
  have hn : 0 < b.length := List.length_pos_iff.mpr hb
  have h0 := bpos h hn
  have hs := inSeg_upper (x := x) h
  have hl := ell_seg h hb hx (upperBound_le b x) hs hj
  simp only [MBPL.deriv, if_neg (show ¬ b.length + 1 < j + 1 by omega), vget_val hn, Res.bind_ok, mbpl_value h hb p hx,
    if_neg (show ¬ j + 1 = 0 by omega)]
  by_cases j0 : j = 0
  · subst j0
    simp only [zero_add, ↓reduceIte]
    by_cases hlt : x < val b 0
    · left
      have : upperBound b x = 0 := by
        by_contra hc
        exact absurd (upperBound_below (show 0 < upperBound b x by omega)) hlt.not_ge
      rw [this] at hl
      rw [if_pos hlt, hl]
      simp [Real.log_div hx.ne' h0.ne']
    · right
      have : 0 < upperBound b x := by
        by_contra hc
        exact hlt (upperBound_above h (by omega) hn)
      rw [if_pos this] at hl
      exact ⟨by rw [hl]; simp, if_neg hlt⟩
  · have hp := bpos h (i := j - 1) (by omega)
    simp only [if_neg (show ¬ j + 1 = 1 by omega), vget_val (show j + 1 - 2 < b.length by omega), Res.bind_ok]
    have e2 : j + 1 - 2 = j - 1 := by omega
    rw [e2]
    by_cases hle : x ≤ val b (j - 1)
    · right
      refine ⟨?_, if_pos hle⟩
      simp only [ell, if_neg j0]
      split
      · rw [max_eq_left ((min_le_left _ _).trans hle), div_self hp.ne', Real.log_one]
      · rw [max_eq_left hle, div_self hp.ne', Real.log_one]
    · left
      rw [if_neg hle]
      have hk : j ≤ upperBound b x := by
        by_contra hc
        exact hle (upperBound_above h (show upperBound b x ≤ j - 1 by omega) (by omega)).le
      by_cases hlt : j + 1 < upperBound b x + 1
      · have hlt' : j < upperBound b x := by omega
        have hjl : j < b.length := hlt'.trans_le (upperBound_le b x)
        rw [if_pos hlt' ] at hl
        simp only [if_pos hlt, Nat.add_sub_cancel, vget_val hjl, Res.bind_ok]
        rw [hl, if_neg (by omega), mul_one, Real.log_div (bpos h hjl).ne' hp.ne']
      · have e : j = upperBound b x := by omega
        rw [if_neg (by omega), if_pos e, ← e] at hl
        rw [if_neg hlt, hl, if_pos ⟨by omega, e⟩, ← e, Real.log_div hx.ne' hp.ne']

/-- With unit scales every derivative reported is the true one; with any scale, so are the
one by the normalisation and the one by the index of the range the energy is in, from the
second range on. -/
theorem C29_derivatives_partial (h : Increasing b) (hb : b ≠ []) (p : Pars) (hx : 0 < x) {i : Nat}
    (hi : i ≤ b.length + 1) (hN : i = 0 → (p 0).tv ≠ 0)
    (hs : i = 0 ∨ (p i).scale = 1 ∨ (∃ a, 2 ≤ i ∧ b[i - 2]? = some a ∧ a ≤ x ∧ ∀ c, b[i - 1]? = some c → x < c))
    {F : Pars → ℝ} (hF : ∀ q, MBPL.value b q x = .ok (F q)) :
    ∃ d, MBPL.deriv b p i x = .ok d ∧ Partial F p i d := by
  have hn : 0 < b.length := List.length_pos_iff.mpr hb
  have hFe : F = fun q => (q 0).tv * shape b (indices q) x := by
    funext q
    have := hF q
    rw [mbpl_value h hb q hx] at this
    exact (Res.ok.inj this).symm
  subst hFe
  cases i with
  | zero =>
    have hN := hN rfl
    refine ⟨(p 0).tv * shape b (indices p) x / (p 0).value, by simp only [MBPL.deriv, if_neg (show ¬ b.length + 1 < 0 by omega), vget_val hn, Res.bind_ok,
      mbpl_value h hb p hx, if_pos], partial_norm (shape b (indices p) x) (fun t => ?_) hN ?_⟩
    · have e : indices (setv p 0 t) = indices p := by
        funext j; simp only [indices, setv, Function.update_of_ne (show j + 1 ≠ 0 by omega)]
      simp only [e]
      simp only [setv, Function.update_self, P.tv]
    · have h1 : (p 0).value ≠ 0 := fun e => hN (by rw [P.tv, e, zero_mul])
      have h2 : (p 0).scale ≠ 0 := fun e => hN (by rw [P.tv, e, mul_zero])
      simp only [P.tv]
      field_simp
  | succ j =>
    have hj : j ≤ b.length := by omega
    have hp := shape_partial (b := b) (x := x) p hj
    rcases mbpl_deriv h hb p hx hj with h1 | ⟨h1, h2⟩
    · refine ⟨_, h1, ?_⟩
      split
      · exact hp
      · rename_i hne
        rcases hs with hs | hs | ⟨a, h2, ha, hax, hc⟩
        · omega
        · rwa [hs] at hp
        · exfalso
          apply hne
          obtain ⟨ha', hal⟩ := val_some ha
          refine ⟨by omega, (upperBound_eq h hj (fun i hi => ?_) fun hl => ?_).symm⟩
          · exact (mono h (by omega) hal).trans (ha'.le.trans hax)
          · exact hc _ (getElem?_val hl)
    · refine ⟨_, h2, ?_⟩
      rw [h1] at hp
      simpa using hp

example : ∃ d, MBPL.deriv [10, 100, 1000] (fun i => ⟨[5, -1, -2, -3, -4].getD i 0, 1⟩) 2 500 = .ok d ∧
    Partial (fun q => (q 0).tv * shape [10, 100, 1000] (indices q) 500) (fun i => ⟨[5, -1, -2, -3, -4].getD i 0, 1⟩) 2 d :=
  C29_derivatives_partial exInc (by simp) _ (by norm_num) (by simp) (by simp) (.inr (.inl rfl))
    (fun q => mbpl_value exInc (by simp) q (by norm_num))

/-- With another scale than one the derivatives are wrong by that factor: by the first index
below the first break, and by any other index above its range. -/
theorem C29_scale_violates (h : Increasing b) (hb : b ≠ []) (p : Pars) (hx : 0 < x) {i : Nat}
    (hN : (p 0).tv ≠ 0) (hs : (p i).scale ≠ 1)
    (hi : (i = 1 ∧ ∃ a, b.head? = some a ∧ x < a) ∨ (2 ≤ i ∧ ∃ c, b[i - 1]? = some c ∧ c ≤ x))
    {F : Pars → ℝ} (hF : ∀ q, MBPL.value b q x = .ok (F q)) :
    ∃ d, MBPL.deriv b p i x = .ok d ∧ ¬ Partial F p i d ∧ Partial F p i (d * (p i).scale) := by
  have hn : 0 < b.length := List.length_pos_iff.mpr hb
  have h0 := bpos h hn
  have hFe : F = fun q => (q 0).tv * shape b (indices q) x := by
    funext q
    have := hF q
    rw [mbpl_value h hb q hx] at this
    exact (Res.ok.inj this).symm
  subst hFe
  obtain ⟨j, rfl⟩ : ∃ j, i = j + 1 := ⟨i - 1, by omega⟩
  have hseg := inSeg_upper (x := x) h
  have hj : j ≤ b.length := by
    rcases hi with ⟨h1, -⟩ | ⟨-, c, hc, -⟩
    · omega
    · have := (val_some hc).2; omega
  have key : ell b x j ≠ 0 ∧ ¬ (1 ≤ j ∧ j = upperBound b x) := by
    have hl := ell_seg h hb hx (upperBound_le b x) hseg hj
    rcases hi with ⟨h1, a, ha, hxa⟩ | ⟨h2, c, hc, hcx⟩
    · obtain rfl : j = 0 := by omega
      have ha' : val b 0 = a := by
        rw [List.head?_eq_getElem?] at ha; exact (val_some ha).1
      have hu : upperBound b x = 0 := upperBound_eq h (Nat.zero_le _) (by omega) (fun _ => by rw [ha']; exact hxa)
      rw [hu] at hl
      simp only [lt_irrefl, ↓reduceIte, Nat.zero_sub] at hl
      refine ⟨?_, by omega⟩
      rw [hl]
      have := Real.log_lt_log hx (hxa.trans_eq ha'.symm)
      linarith
    · obtain ⟨hc', hcl⟩ := val_some hc
      simp only [Nat.add_sub_cancel] at hc' hcl
      have hu : j < upperBound b x := by
        by_contra hcon
        have := upperBound_above h (show upperBound b x ≤ j by omega) hcl
        linarith
      rw [if_pos hu] at hl
      refine ⟨?_, by omega⟩
      rw [hl]
      have := Real.log_lt_log (bpos h (show j - 1 < b.length by omega)) (mono_lt h (show j - 1 < j by omega) hcl)
      linarith
  have hp := shape_partial (b := b) (x := x) p hj
  rcases mbpl_deriv h hb p hx hj with h1 | ⟨h1, -⟩
  · rw [if_neg key.2, mul_one] at h1
    refine ⟨_, h1, fun hc => ?_, hp⟩
    have e := partial_unique hc hp
    have hne : (p 0).tv * shape b (indices p) x * ell b x j ≠ 0 :=
      mul_ne_zero (mul_ne_zero hN (Real.exp_pos _).ne') key.1
    exact hs (mul_left_cancel₀ hne (by rw [← e, mul_one]))
  · exact absurd h1 key.1

example : ∃ d, MBPL.deriv [10, 100, 1000] (fun i => ⟨[5, -1, -2, -3, -4].getD i 0, 2⟩) 2 500 = .ok d ∧
    ¬ Partial (fun q => (q 0).tv * shape [10, 100, 1000] (indices q) 500)
      (fun i => ⟨[5, -1, -2, -3, -4].getD i 0, 2⟩) 2 d := by
  obtain ⟨d, h1, h2, -⟩ := C29_scale_violates (x := 500) exInc (by simp) (fun i => ⟨[5, -1, -2, -3, -4].getD i 0, 2⟩)
    (by norm_num) (i := 2) (by norm_num [P.tv]) (by norm_num) (.inr ⟨le_rfl, 100, rfl, by norm_num⟩)
    (fun q => mbpl_value exInc (by simp) q (by norm_num))
  exact ⟨d, h1, h2⟩

end Verif.Pieces
