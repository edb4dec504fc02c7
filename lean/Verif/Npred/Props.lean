import Verif.Npred.Lemmas
import Mathlib.Analysis.Calculus.Deriv.Add
import Mathlib.Analysis.Calculus.Deriv.Mul
import Mathlib.Analysis.Calculus.Deriv.Pow
/-
C95: the predicted counts of a source, in all and in a range of energies.
-/
set_option linter.unusedSectionVars false
set_option linter.unusedSimpArgs false
set_option linter.unusedVariables false
namespace Verif.Npred
open Verif Verif.Vec Real Spec

section
variable {E X : List ℝ} {e0 r : ℝ}

theorem Spec.LogGrid.eq_points (g : LogGrid E e0 r) : E = logPoints e0 (e0 * r ^ (E.length - 1)) E.length := by
  apply ext_val
  · rw [logPoints_length]
  · intro k hk
    unfold logPoints
    rw [val_map_range _ hk, g.row hk, mul_div_assoc, mul_comm e0 (r ^ (E.length - 1) / e0), div_mul_cancel₀ _ g.pos.ne']
    congr 1
    rw [← rpow_natCast r (E.length - 1), ← rpow_mul g.rpos.le, g.nsub, mul_div_cancel₀ _ g.n1.ne', rpow_natCast]

/-- The arrays of a range within the energies. -/
theorem arrays_ok (g : LogGrid E e0 r) (hX : X.length = E.length) {emin emax : ℝ} (h1 : e0 ≤ emin) (h2 : emin ≤ emax)
    (h3 : emax ≤ e0 * r ^ (E.length - 1)) :
    ∃ X', arrays E X emin emax = .ok (logPoints emin emax E.length, X') ∧ X'.length = E.length ∧
      ∀ (k : ℕ) (e x : ℝ), (logPoints emin emax E.length)[k]? = some e → X'[k]? = some x → OnPolygon E X e x := by
  have hn := g.two
  have hr := g.logr
  have hlo : 0 < emin := lt_of_lt_of_le g.pos h1
  have hhi : 0 < emax := lt_of_lt_of_le hlo h2
  have hb : 0 < e0 * r ^ (E.length - 1) := lt_of_lt_of_le hhi h3
  unfold arrays
  rw [g.front, Res.bind_ok, g.back, Res.bind_ok]
  simp only [lower, upper, if_neg (not_lt.2 h1), if_neg (not_lt.2 h3), gt_iff_lt, choose]
  have log0 : log e0 ≤ log emin := log_le_log g.pos h1
  have log1 : log emin ≤ log emax := log_le_log hlo h2
  have log2 : log emax ≤ log e0 + ((E.length : ℝ) - 1) * log r := by
    have := log_le_log hhi h3
    rwa [log_mul g.pos.ne' (pow_pos g.rpos _).ne', log_pow, g.nsub] at this
  have inside : ∀ k < E.length, log e0 ≤ (k : ℝ) * (log (emax / emin) / ((E.length : ℝ) - 1)) + log emin ∧
      (k : ℝ) * (log (emax / emin) / ((E.length : ℝ) - 1)) + log emin ≤ log e0 + ((E.length : ℝ) - 1) * log r := by
    intro k hk
    have hk' : (k : ℝ) ≤ (E.length : ℝ) - 1 := by rw [← g.nsub]; exact_mod_cast (by omega : k ≤ E.length - 1)
    rw [log_div hhi.ne' hlo.ne']
    have hs : 0 ≤ (log emax - log emin) / ((E.length : ℝ) - 1) := div_nonneg (by linarith) g.n1.le
    have hs2 : (k : ℝ) * ((log emax - log emin) / ((E.length : ℝ) - 1)) ≤ log emax - log emin := by
      calc _ ≤ ((E.length : ℝ) - 1) * ((log emax - log emin) / ((E.length : ℝ) - 1)) := mul_le_mul_of_nonneg_right hk' hs
        _ = _ := mul_div_cancel₀ _ g.n1.ne'
    have := mul_nonneg (Nat.cast_nonneg (α := ℝ) k) hs
    constructor <;> linarith
  by_cases hw : emin = e0 ∧ emax = e0 * r ^ (E.length - 1)
  · rw [if_pos hw]
    refine ⟨X, ?_, hX, ?_⟩
    · rw [hw.1, hw.2, ← g.eq_points]
    · rw [hw.1, hw.2, ← g.eq_points]
      intro k e x he hx
      have hk := (List.getElem?_eq_some_iff.1 he).1
      rw [getElem?_val hk, Option.some.injEq] at he
      rw [getElem?_val (by omega), Option.some.injEq] at hx
      subst he; subst hx
      have mono : ∀ {i : ℕ}, i + 1 < E.length → val E i < val E (i + 1) := by
        intro i hi
        rw [g.row hi, g.row (by omega : i < E.length), pow_succ, ← mul_assoc]
        have := mul_pos g.pos (pow_pos g.rpos i)
        have := g.ratio
        nlinarith
      have logne : ∀ {i : ℕ}, i + 1 < E.length → log (val E (i + 1)) - log (val E i) ≠ 0 := by
        intro i hi
        have := log_lt_log (g.all_pos _ (val_mem (by omega))) (mono hi)
        linarith
      rcases Nat.lt_or_ge (k + 1) E.length with h | h
      · refine ⟨k, _, _, _, _, getElem?_val (by omega), getElem?_val (by omega), getElem?_val (by omega), getElem?_val (by omega), le_rfl, (mono h).le, ?_⟩
        unfold logInterp; simp
      · obtain ⟨m, rfl⟩ : ∃ m, k = m + 1 := ⟨k - 1, by omega⟩
        refine ⟨m, _, _, _, _, getElem?_val (by omega), getElem?_val (by omega), getElem?_val (by omega), getElem?_val (by omega), (mono (by omega)).le, le_rfl, ?_⟩
        unfold logInterp
        rw [div_self (logne (by omega))]; ring
  · rw [if_neg hw]
    have ex : ∀ k, ∃ x, k < E.length → point E X e0 (log r) ((k : ℝ) * (log (emax / emin) / ((E.length : ℝ) - 1)) + log emin) = .ok x ∧
        OnPolygon E X (exp ((k : ℝ) * (log (emax / emin) / ((E.length : ℝ) - 1)) + log emin)) x := by
      intro k
      by_cases hk : k < E.length
      · obtain ⟨x, hx⟩ := point_ok g hX (inside k hk).1 (inside k hk).2
        exact ⟨x, fun _ => hx⟩
      · exact ⟨0, fun h => absurd h hk⟩
    choose x hx using ex
    refine ⟨_, resample_ok g hlo hhi x (fun k hk => (hx k hk).1), by simp, ?_⟩
    intro k e y he hy
    have hk : k < E.length := by have := (List.getElem?_eq_some_iff.1 he).1; rwa [logPoints_length] at this
    rw [getElem?_val (by rw [logPoints_length]; exact hk), Option.some.injEq] at he
    rw [getElem?_val (by simpa using hk), Option.some.injEq, val_map_range _ hk] at hy
    subst hy
    have := (hx k hk).2
    rw [← he]
    unfold logPoints
    rw [val_map_range _ hk, rpow_def_of_pos (by positivity)]
    convert this using 1
    rw [exp_add, exp_log hlo, mul_comm]
    congr 2
    ring

/-- C95.  With the exposures at all energies, the predicted counts are the logarithmic trapezoid of
spectrum times exposure. -/
theorem C95_all (h : E.length = X.length) (h2 : 2 ≤ E.length) (hp : ∀ e ∈ E, 0 < e) (S : ℝ → ℝ) :
    npred E X S = .ok (counts E X S) := npred_ok h h2 hp S

/-- A case: a spectrum 1/E with constant exposure. -/
example : npred [1, 2, 4] [3, 3, 3] (fun e => 1 / e) = .ok (3 * log 4) := by
  rw [C95_all (E := [1, 2, 4]) (X := [3, 3, 3]) rfl (by simp) (by intro v hv; simp at hv; rcases hv with rfl | rfl | rfl <;> norm_num)]
  congr 1
  norm_num [counts, TrapQuad.logTrapezoid, TrapQuad.trapezoid]
  ring

/-- C95.  For energies in equal steps of the logarithm and any range within them, the counts are the
logarithmic trapezoid on as many energies over the range, with the exposures interpolated linearly in the
logarithm of the energy. -/
theorem C95_range (g : LogGrid E e0 r) (hX : X.length = E.length) (S : ℝ → ℝ) {emin emax : ℝ} (h1 : e0 ≤ emin) (h2 : emin ≤ emax)
    (h3 : emax ≤ e0 * r ^ (E.length - 1)) :
    ∃ X', npredRange E X S emin emax = .ok (counts (logPoints emin emax E.length) X' S) ∧ X'.length = E.length ∧
      ∀ (k : ℕ) (e x : ℝ), (logPoints emin emax E.length)[k]? = some e → X'[k]? = some x → OnPolygon E X e x := by
  obtain ⟨X', a, b, c⟩ := arrays_ok g hX h1 h2 h3
  refine ⟨X', ?_, b, c⟩
  unfold npredRange
  rw [a, Res.bind_ok]
  have hlo : 0 < emin := lt_of_lt_of_le g.pos h1
  exact npred_ok (by rw [logPoints_length, b]) (by rw [logPoints_length]; exact g.two) (logPoints_pos hlo (lt_of_lt_of_le hlo h2) _) S

/-- The hypotheses can be met. -/
theorem grid3 : LogGrid [1, 4, 16] 1 4 := by
  refine ⟨by norm_num, by norm_num, by simp, ?_⟩
  intro k h
  match k, h with
  | 0, _ => norm_num
  | 1, _ => norm_num
  | 2, _ => norm_num

/-- C95.  Limits beyond the energies are replaced by the first and the last energy. -/
theorem C95_clipped (g : LogGrid E e0 r) (S : ℝ → ℝ) (emin emax : ℝ) :
    npredRange E X S emin emax = npredRange E X S (max e0 emin) (min (e0 * r ^ (E.length - 1)) emax) := by
  have l : lower e0 emin = lower e0 (max e0 emin) := by
    unfold lower
    rw [if_neg (not_lt.2 (le_max_left _ _))]
    split
    · rename_i h; rw [max_eq_left h.le]
    · rename_i h; rw [max_eq_right (not_lt.1 h)]
  have u : upper (e0 * r ^ (E.length - 1)) emax = upper (e0 * r ^ (E.length - 1)) (min (e0 * r ^ (E.length - 1)) emax) := by
    unfold upper
    rw [if_neg (not_lt.2 (min_le_left _ _))]
    split
    · rename_i h; rw [min_eq_left (le_of_lt h)]
    · rename_i h; rw [min_eq_right (not_lt.1 h)]
  unfold npredRange arrays
  simp only [g.front, g.back, Res.bind_ok, ← l, ← u]

/-- C95.  A range that includes all energies gives the counts for all energies. -/
theorem C95_whole (g : LogGrid E e0 r) (S : ℝ → ℝ) {emin emax : ℝ} (h1 : emin ≤ e0) (h2 : e0 * r ^ (E.length - 1) ≤ emax) :
    npredRange E X S emin emax = npred E X S := by
  rw [C95_clipped g, max_eq_left h1, min_eq_left h2]
  unfold npredRange arrays
  rw [g.front, Res.bind_ok, g.back, Res.bind_ok]
  simp only [lower, upper, choose, lt_irrefl, gt_iff_lt, if_false, and_self, if_true, Res.bind_ok]

theorem log_points {a b : ℝ} (ha : 0 < a) (hb : 0 < b) {n k : ℕ} (hk : k < n) :
    log (val (logPoints a b n) k) = log a + (k : ℝ) / ((n : ℝ) - 1) * (log b - log a) := by
  unfold logPoints
  rw [val_map_range _ hk, log_mul ha.ne' (by positivity), log_rpow (by positivity), log_div hb.ne' ha.ne']

/-- C95.  Exposures and a spectrum that are not negative give counts that are not negative. -/
theorem C95_nonneg (g : LogGrid E e0 r) (hX : X.length = E.length) (S : ℝ → ℝ) (hS : ∀ e, 0 ≤ S e) (hx : ∀ x ∈ X, 0 ≤ x) {emin emax : ℝ}
    (h1 : e0 ≤ emin) (h2 : emin ≤ emax) (h3 : emax ≤ e0 * r ^ (E.length - 1)) :
    ∃ v, npredRange E X S emin emax = .ok v ∧ 0 ≤ v := by
  obtain ⟨X', a, b, c⟩ := C95_range g hX S h1 h2 h3
  refine ⟨_, a, ?_⟩
  have hn := g.two
  have hlo : 0 < emin := lt_of_lt_of_le g.pos h1
  have hhi : 0 < emax := lt_of_lt_of_le hlo h2
  have pos : ∀ k, k < E.length → 0 ≤ val X' k := by
    intro k hk
    obtain ⟨i, a0, a1, x0, x1, i1, i2, i3, i4, i5, i6, i7⟩ := c k _ _ (getElem?_val (by rw [logPoints_length]; exact hk)) (getElem?_val (by omega))
    have ha0 : 0 < a0 := g.all_pos _ (List.mem_of_getElem? i1)
    have hx0 := hx _ (List.mem_of_getElem? i3)
    have hx1 := hx _ (List.mem_of_getElem? i4)
    rw [i7]
    unfold logInterp
    have l1 := log_le_log ha0 i5
    have l2 := log_le_log (lt_of_lt_of_le ha0 i5) i6
    set t := (log (val (logPoints emin emax E.length) k) - log a0) / (log a1 - log a0)
    have t0 : 0 ≤ t := div_nonneg (by linarith) (by linarith)
    have t1 : t ≤ 1 := div_le_one_of_le₀ (by linarith) (by linarith)
    nlinarith [mul_nonneg (sub_nonneg.2 t1) hx0, mul_nonneg t0 hx1]
  rw [counts_sum (by rw [logPoints_length, b]) (by rw [logPoints_length]; omega), logPoints_length]
  apply Finset.sum_nonneg
  intro i hi
  have hi := Finset.mem_range.1 hi
  rw [log_points hlo hhi (by omega), log_points hlo hhi (by omega)]
  have p1 := logPoints_pos hlo hhi E.length _ (val_mem (l := logPoints emin emax E.length) (k := i) (by rw [logPoints_length]; omega))
  have p2 := logPoints_pos hlo hhi E.length _ (val_mem (l := logPoints emin emax E.length) (k := i + 1) (by rw [logPoints_length]; omega))
  have l1 := log_le_log hlo h2
  have s := div_nonneg (sub_nonneg.2 l1) g.n1.le
  refine mul_nonneg ?_ ?_
  · have := mul_nonneg p1.le (mul_nonneg (hS (val (logPoints emin emax E.length) i)) (pos i (by omega)))
    have := mul_nonneg p2.le (mul_nonneg (hS (val (logPoints emin emax E.length) (i + 1))) (pos (i + 1) (by omega)))
    linarith
  · push_cast
    calc (0 : ℝ) ≤ (log emax - log emin) / ((E.length : ℝ) - 1) := s
      _ = _ := by ring

/-- The hypotheses can be met. -/
example : ∃ v, npredRange [1, 4, 16] [1, 2, 1] (fun _ => 1) 2 8 = .ok v ∧ 0 ≤ v :=
  C95_nonneg (X := [1, 2, 1]) grid3 rfl (fun _ => 1) (fun _ => by norm_num) (by simp) (by norm_num) (by norm_num) (by norm_num)

/-! ### Derivatives -/

theorem counts_deriv {E X : List ℝ} (h : E.length = X.length) (h2 : 2 ≤ E.length) (S : ℝ → ℝ → ℝ) (dS : ℝ → ℝ) (θ : ℝ)
    (hd : ∀ e, HasDerivAt (fun t => S t e) (dS e) θ) : HasDerivAt (fun t => counts E X (S t)) (counts E X dS) θ := by
  simp only [counts_sum h h2]
  refine HasDerivAt.fun_sum fun i _ => ?_
  refine HasDerivAt.mul_const (HasDerivAt.div_const (HasDerivAt.add ?_ ?_) 2) _
  · exact ((hd _).mul_const _).const_mul _
  · exact ((hd _).mul_const _).const_mul _

/-- C95.  The derivative of the counts in a range with respect to a parameter is the true one: for any
parameter that is not "Prefactor", and for "Prefactor" at zero. -/
theorem C95_derivative (g : LogGrid E e0 r) (hX : X.length = E.length) (S : ℝ → ℝ → ℝ) (dS : ℝ → ℝ) (θ : ℝ) (pref : Option ℝ)
    (hd : ∀ e, HasDerivAt (fun t => S t e) (dS e) θ) (hp : pref = none ∨ pref = some 0) {emin emax : ℝ} (h1 : e0 ≤ emin) (h2 : emin ≤ emax)
    (h3 : emax ≤ e0 * r ^ (E.length - 1)) :
    ∃ (c : ℝ → ℝ) (d : ℝ), (∀ t, npredRange E X (S t) emin emax = .ok (c t)) ∧
      npredDerivRange E X (S θ) dS pref emin emax = .ok d ∧ HasDerivAt c d θ := by
  obtain ⟨X', a, b, -⟩ := arrays_ok g hX h1 h2 h3
  have hlo : 0 < emin := lt_of_lt_of_le g.pos h1
  have hl : (logPoints emin emax E.length).length = X'.length := by rw [logPoints_length, b]
  have h2l : 2 ≤ (logPoints emin emax E.length).length := by rw [logPoints_length]; exact g.two
  have hpos := logPoints_pos hlo (lt_of_lt_of_le hlo h2) E.length
  refine ⟨fun t => counts (logPoints emin emax E.length) X' (S t), _, fun t => ?_, ?_, counts_deriv hl h2l S dS θ hd⟩
  · unfold npredRange; rw [a, Res.bind_ok]; exact npred_ok hl h2l hpos _
  · unfold npredDerivRange npredDeriv
    rw [a, Res.bind_ok]
    rcases hp with rfl | rfl
    · exact npred_ok hl h2l hpos _
    · simp only [ne_eq, not_true_eq_false, if_false]; exact npred_ok hl h2l hpos _

/-- The hypotheses can be met. -/
example : ∃ (c : ℝ → ℝ) (d : ℝ), (∀ t, npredRange [1, 4, 16] [1, 2, 1] (fun e => t ^ 2 * e) 2 8 = .ok (c t)) ∧
    npredDerivRange [1, 4, 16] [1, 2, 1] (fun e => 3 ^ 2 * e) (fun e => 6 * e) none 2 8 = .ok d ∧ HasDerivAt c d 3 :=
  C95_derivative (X := [1, 2, 1]) grid3 rfl (fun t e => t ^ 2 * e) (fun e => 6 * e) 3 none
    (fun e => ((hasDerivAt_pow 2 (3 : ℝ)).mul_const e).congr_deriv (by norm_num)) (.inl rfl) (by norm_num) (by norm_num) (by norm_num)

/-- C95.  For "Prefactor" it is the true one if the spectrum is proportional to it. -/
theorem C95_prefactor (g : LogGrid E e0 r) (hX : X.length = E.length) (s dS : ℝ → ℝ) (v : ℝ) (hv : v ≠ 0) {emin emax : ℝ} (h1 : e0 ≤ emin)
    (h2 : emin ≤ emax) (h3 : emax ≤ e0 * r ^ (E.length - 1)) :
    ∃ (c : ℝ → ℝ) (d : ℝ), (∀ t, npredRange E X (fun e => t * s e) emin emax = .ok (c t)) ∧
      npredDerivRange E X (fun e => v * s e) dS (some v) emin emax = .ok d ∧ HasDerivAt c d v := by
  obtain ⟨c, d, a, b, hc⟩ := C95_derivative g hX (fun t e => t * s e) s v none
    (fun e => ((hasDerivAt_id v).mul_const (s e)).congr_deriv (one_mul _)) (.inl rfl) h1 h2 h3
  refine ⟨c, d, a, ?_, hc⟩
  have hcd : c v = v * d := by
    have e : ∀ t, c t = t * c 1 := by
      intro t
      obtain ⟨X', a', b', -⟩ := arrays_ok g hX h1 h2 h3
      have hlo : 0 < emin := lt_of_lt_of_le g.pos h1
      have hl : (logPoints emin emax E.length).length = X'.length := by rw [logPoints_length, b']
      have h2l : 2 ≤ (logPoints emin emax E.length).length := by rw [logPoints_length]; exact g.two
      have hpos := logPoints_pos hlo (lt_of_lt_of_le hlo h2) E.length
      have form : ∀ t, c t = counts (logPoints emin emax E.length) X' (fun e => t * s e) := by
        intro t
        have := a t
        unfold npredRange at this
        rw [a', Res.bind_ok, npred_ok hl h2l hpos, Res.ok.injEq] at this
        exact this.symm
      rw [form, form, counts_sum hl h2l, counts_sum hl h2l, Finset.mul_sum]
      apply Finset.sum_congr rfl
      intro i _
      ring
    have : HasDerivAt c (c 1) v := by
      have h := ((hasDerivAt_id v).mul_const (c 1)).congr_deriv (one_mul _)
      exact h.congr_of_eventuallyEq (Filter.Eventually.of_forall e)
    rw [e v, this.unique hc]
  unfold npredDerivRange npredDeriv
  have := a v
  unfold npredRange at this
  cases ha : arrays E X emin emax with
  | ok q =>
    rw [ha, Res.bind_ok] at this
    simp only [Res.bind_ok, ne_eq, hv, not_false_eq_true, if_true, this]
    rw [hcd, mul_comm, mul_div_assoc, div_self hv, mul_one]
  | throws => rw [ha] at this; simp at this
  | ub => rw [ha] at this; simp at this

/-- The hypotheses can be met. -/
example : ∃ (c : ℝ → ℝ) (d : ℝ), (∀ t, npredRange [1, 4, 16] [1, 2, 1] (fun e => t * (1 / e)) 2 8 = .ok (c t)) ∧
    npredDerivRange [1, 4, 16] [1, 2, 1] (fun e => 3 * (1 / e)) (fun e => 0) (some 3) 2 8 = .ok d ∧ HasDerivAt c d 3 :=
  C95_prefactor (X := [1, 2, 1]) grid3 rfl (fun e => 1 / e) (fun e => 0) 3 (by norm_num) (by norm_num) (by norm_num) (by norm_num)

/-- C95 is violated for "Prefactor" in a spectrum that is not proportional to it: the quotient is
reported, whatever the derivative is. -/
theorem C95_prefactor_violates (g : LogGrid E e0 r) (hX : X.length = E.length) (S dS : ℝ → ℝ) (v c : ℝ) (hv : v ≠ 0) {emin emax : ℝ}
    (hc : npredRange E X S emin emax = .ok c) : npredDerivRange E X S dS (some v) emin emax = .ok (c / v) := by
  unfold npredDerivRange npredDeriv
  unfold npredRange at hc
  cases ha : arrays E X emin emax with
  | ok q =>
    rw [ha, Res.bind_ok] at hc
    simp only [Res.bind_ok, ne_eq, hv, not_false_eq_true, if_true, hc]
  | throws => rw [ha] at hc; simp at hc
  | ub => rw [ha] at hc; simp at hc

/-! ### Where it fails -/

theorem choose_neg {f b lo hi : ℝ} (h : ¬ (lo = f ∧ hi = b)) : choose E X f b lo hi = resample E X f b lo hi := by
  unfold choose; rw [if_neg h]

/-- With constant exposure, positive spectrum and the limits in the wrong order the counts are
negative. -/
theorem counts_neg {a b c : ℝ} (ha : 0 < a) (hb : 0 < b) (hba : b < a) (hc : 0 < c) {n : ℕ} (hn : 2 ≤ n) {S : ℝ → ℝ} (hS : ∀ e, 0 < S e) :
    counts (logPoints a b n) ((List.range n).map fun _ => c) S < 0 := by
  rw [counts_sum (by rw [logPoints_length]; simp) (by rw [logPoints_length]; exact hn), logPoints_length]
  apply Finset.sum_neg
  · intro i hi
    have hi := Finset.mem_range.1 hi
    rw [log_points ha hb (by omega), log_points ha hb (by omega), val_map_range _ (by omega), val_map_range _ (by omega)]
    have p1 := logPoints_pos ha hb n _ (val_mem (l := logPoints a b n) (k := i) (by rw [logPoints_length]; omega))
    have p2 := logPoints_pos ha hb n _ (val_mem (l := logPoints a b n) (k := i + 1) (by rw [logPoints_length]; omega))
    have l1 := log_lt_log hb hba
    have hn1 : (0 : ℝ) < (n : ℝ) - 1 := by
      have : (2 : ℝ) ≤ n := by exact_mod_cast hn
      linarith
    have s := div_neg_of_neg_of_pos (sub_neg.2 l1) hn1
    refine mul_neg_of_pos_of_neg ?_ ?_
    · have := hS (val (logPoints a b n) i)
      have := hS (val (logPoints a b n) (i + 1))
      positivity
    · push_cast
      calc _ = (log b - log a) / ((n : ℝ) - 1) := by ring
        _ < 0 := s
  · exact ⟨0, Finset.mem_range.2 (by omega)⟩

/-- C95 is violated for a range below the energies: less than one step below, the counts of a positive
spectrum with positive exposure are negative. -/
theorem C95_below_violates (g : LogGrid E e0 r) {c : ℝ} (hc : 0 < c) (hX : X = (List.range E.length).map fun _ => c) {S : ℝ → ℝ} (hS : ∀ e, 0 < S e)
    {emin emax : ℝ} (h1 : emin ≤ emax) (h2 : e0 / r < emax) (h3 : emax < e0) :
    ∃ v, npredRange E X S emin emax = .ok v ∧ v < 0 := by
  have hn := g.two
  have hr := g.logr
  have hhi : 0 < emax := lt_trans (div_pos g.pos g.rpos) h2
  have hb := g.lt_back
  have l1 := log_lt_log hhi h3
  have l2 := log_lt_log (div_pos g.pos g.rpos) h2
  rw [log_div g.pos.ne' g.rpos.ne'] at l2
  have hXl : X.length = E.length := by rw [hX]; simp
  refine ⟨counts (logPoints e0 emax E.length) ((List.range E.length).map fun _ => c) S, ?_, counts_neg g.pos hhi h3 hc hn hS⟩
  rw [C95_clipped g, max_eq_left (by linarith), min_eq_right (by linarith)]
  unfold npredRange arrays
  rw [g.front, Res.bind_ok, g.back, Res.bind_ok]
  simp only [lower, upper, lt_irrefl, gt_iff_lt, if_false, if_neg (show ¬ e0 * r ^ (E.length - 1) < emax by linarith)]
  rw [choose_neg (by rintro ⟨-, h⟩; linarith)]
  rw [resample_ok g g.pos hhi (fun _ => c) ?_, Res.bind_ok]
  · exact npred_ok (by rw [logPoints_length]; simp) (by rw [logPoints_length]; exact hn) (logPoints_pos g.pos hhi _) _
  · intro k hk
    have hk' : (k : ℝ) ≤ (E.length : ℝ) - 1 := by rw [← g.nsub]; exact_mod_cast (by omega : k ≤ E.length - 1)
    have hs : (k : ℝ) / ((E.length : ℝ) - 1) ≤ 1 := div_le_one_of_le₀ hk' g.n1.le
    have hs0 : 0 ≤ (k : ℝ) / ((E.length : ℝ) - 1) := div_nonneg (Nat.cast_nonneg _) g.n1.le
    have e : ((k : ℝ) * (log (emax / e0) / ((E.length : ℝ) - 1)) + log e0 - log e0) / log r =
        (k : ℝ) / ((E.length : ℝ) - 1) * ((log emax - log e0) / log r) := by
      rw [log_div hhi.ne' g.pos.ne']; ring
    have q : -1 < (log emax - log e0) / log r := by rw [lt_div_iff₀ hr]; linarith
    have q0 : (log emax - log e0) / log r < 0 := div_neg_of_neg_of_pos (by linarith) hr
    rw [point_inner g hXl (i := 0) (by omega) ?_ ?_]
    · rw [hX, val_map_range _ (by omega), val_map_range _ (by omega)]
      unfold logInterp; simp
    · rw [e, Nat.floor_eq_zero]
      nlinarith
    · rw [e]; nlinarith

/-- The hypotheses can be met: the counts between 0.5 and 0.8 of a source with exposures from 1 to 16. -/
example : ∃ v, npredRange [1, 4, 16] ((List.range 3).map fun _ => (7 : ℝ)) (fun _ => 1) (1 / 2) (4 / 5) = .ok v ∧ v < 0 :=
  C95_below_violates grid3 (by norm_num) rfl (fun _ => by norm_num) (by norm_num) (by norm_num) (by norm_num)

/-- C95 is violated for a range above the energies: less than one step above, the counts of a positive
spectrum with positive exposure are negative; farther above there is an exception. -/
theorem C95_above_violates (g : LogGrid E e0 r) {c : ℝ} (hc : 0 < c) (hX : X = (List.range E.length).map fun _ => c) {S : ℝ → ℝ} (hS : ∀ e, 0 < S e)
    {emin emax : ℝ} (h1 : emin ≤ emax) (h2 : e0 * r ^ (E.length - 1) < emin) :
    (emin < e0 * r ^ E.length → ∃ v, npredRange E X S emin emax = .ok v ∧ v < 0) ∧
    (e0 * r ^ E.length ≤ emin → npredRange E X S emin emax = .throws) := by
  have hn := g.two
  have hr := g.logr
  have hb := g.lt_back
  have hb0 : 0 < e0 * r ^ (E.length - 1) := lt_trans g.pos hb
  have hlo : 0 < emin := lt_trans hb0 h2
  have hXl : X.length = E.length := by rw [hX]; simp
  have lb : log (e0 * r ^ (E.length - 1)) = log e0 + ((E.length : ℝ) - 1) * log r := by
    rw [log_mul g.pos.ne' (pow_pos g.rpos _).ne', log_pow, g.nsub]
  have lb' : log (e0 * r ^ E.length) = log e0 + (E.length : ℝ) * log r := by
    rw [log_mul g.pos.ne' (pow_pos g.rpos _).ne', log_pow]
  have l1 := log_lt_log hb0 h2
  rw [lb] at l1
  have e : ∀ k : ℕ, ((k : ℝ) * (log (e0 * r ^ (E.length - 1) / emin) / ((E.length : ℝ) - 1)) + log emin - log e0) / log r =
      ((1 - (k : ℝ) / ((E.length : ℝ) - 1)) * (log emin - log e0 - ((E.length : ℝ) - 1) * log r)) / log r + ((E.length : ℝ) - 1) := by
    intro k
    rw [log_div hb0.ne' hlo.ne', lb]
    have := g.n1.ne'
    field_simp
    ring
  have red : npredRange E X S emin emax =
      (resample E X e0 (e0 * r ^ (E.length - 1)) emin (e0 * r ^ (E.length - 1)) >>= fun a => npred a.1 a.2 S) := by
    rw [C95_clipped g, max_eq_right (by linarith), min_eq_left (by linarith)]
    unfold npredRange arrays
    rw [g.front, Res.bind_ok, g.back, Res.bind_ok]
    simp only [lower, upper, lt_irrefl, gt_iff_lt, if_false, if_neg (show ¬ emin < e0 by linarith)]
    rw [choose_neg (by rintro ⟨h, -⟩; linarith)]
  rw [red]
  refine ⟨fun h3 => ?_, fun h3 => ?_⟩
  · have l3 := log_lt_log hlo h3
    rw [lb'] at l3
    refine ⟨counts (logPoints emin (e0 * r ^ (E.length - 1)) E.length) ((List.range E.length).map fun _ => c) S, ?_, counts_neg hlo hb0 h2 hc hn hS⟩
    rw [resample_ok g hlo hb0 (fun _ => c) ?_, Res.bind_ok]
    · exact npred_ok (by rw [logPoints_length]; simp) (by rw [logPoints_length]; exact hn) (logPoints_pos hlo hb0 _) _
    · intro k hk
      have hk' : (k : ℝ) ≤ (E.length : ℝ) - 1 := by rw [← g.nsub]; exact_mod_cast (by omega : k ≤ E.length - 1)
      have hs : (k : ℝ) / ((E.length : ℝ) - 1) ≤ 1 := div_le_one_of_le₀ hk' g.n1.le
      have hs0 : 0 ≤ (k : ℝ) / ((E.length : ℝ) - 1) := div_nonneg (Nat.cast_nonneg _) g.n1.le
      set t := (1 - (k : ℝ) / ((E.length : ℝ) - 1)) * (log emin - log e0 - ((E.length : ℝ) - 1) * log r) with ht
      have t0 : 0 ≤ t := mul_nonneg (by linarith) (by linarith)
      have t1 : t < log r := by nlinarith
      have q0 : 0 ≤ t / log r := div_nonneg t0 hr.le
      have q1 : t / log r < 1 := (div_lt_one hr).2 t1
      rw [point_last g hXl ?_ ?_]
      · rw [hX, List.length_map, List.length_range, val_map_range _ (by omega)]
      · rw [e k, ← ht, Nat.floor_eq_iff (by linarith [g.n1]), g.nsub]
        constructor <;> linarith
      · rw [e k, ← ht]; linarith [g.n1]
  · have l3 := log_le_log (mul_pos g.pos (pow_pos g.rpos _)) h3
    rw [lb'] at l3
    have hp : (E.length : ℝ) ≤ (((0 : ℕ) : ℝ) * (log (e0 * r ^ (E.length - 1) / emin) / ((E.length : ℝ) - 1)) + log emin - log e0) / log r := by
      rw [le_div_iff₀ hr]
      push_cast
      linarith
    have hk : E.length ≤ ⌊(((0 : ℕ) : ℝ) * (log (e0 * r ^ (E.length - 1) / emin) / ((E.length : ℝ) - 1)) + log emin - log e0) / log r⌋₊ := Nat.le_floor hp
    have hpt : point E X e0 (log r) (((0 : ℕ) : ℝ) * (log (e0 * r ^ (E.length - 1) / emin) / ((E.length : ℝ) - 1)) + log emin) = .throws := by
      unfold point
      rw [toSize_ok (by linarith [g.n1]), Res.bind_ok, if_neg (by omega), vat_ge (by omega), Res.bind_throws]
    unfold resample
    simp only
    rw [g.step, if_neg (by rintro (h | h) <;> [omega; linarith])]
    obtain ⟨m, hm⟩ : ∃ m, E.length = m + 1 := ⟨E.length - 1, by omega⟩
    rw [hm] at hpt ⊢
    rw [loop]
    simp only [hpt, Res.bind_throws]

/-- The hypotheses can be met. -/
example : npredRange [1, 4, 16] ((List.range 3).map fun _ => (7 : ℝ)) (fun _ => 1) 100 200 = .throws :=
  (C95_above_violates grid3 (by norm_num) rfl (fun _ => by norm_num) (by norm_num) (by norm_num)).2 (by norm_num)

/-- Constant exposures stay constant in a range. -/
theorem range_const (g : LogGrid E e0 r) {c : ℝ} (hX : X = (List.range E.length).map fun _ => c) (S : ℝ → ℝ) {emin emax : ℝ}
    (h1 : e0 ≤ emin) (h2 : emin ≤ emax) (h3 : emax ≤ e0 * r ^ (E.length - 1)) :
    npredRange E X S emin emax = .ok (counts (logPoints emin emax E.length) ((List.range E.length).map fun _ => c) S) := by
  obtain ⟨X', a, b, h⟩ := C95_range (X := X) g (by rw [hX]; simp) S h1 h2 h3
  have : X' = (List.range E.length).map fun _ => c := by
    apply ext_val
    · rw [b]; simp
    · intro k hk
      have hk : k < E.length := by omega
      obtain ⟨i, a0, a1, x0, x1, -, -, i3, i4, -, -, i7⟩ := h k _ _ (getElem?_val (by rw [logPoints_length]; exact hk)) (getElem?_val (by omega))
      have c0 : ∀ {j : ℕ} {x : ℝ}, X[j]? = some x → x = c := by
        intro j x hx
        have := List.mem_of_getElem? hx
        rw [hX] at this
        obtain ⟨_, -, rfl⟩ := List.mem_map.1 this
        rfl
      rw [val_map_range _ hk, i7, c0 i3, c0 i4]
      unfold logInterp; simp
  rw [a, this]

theorem points3 {a q : ℝ} (ha : 0 < a) (hq : 0 < q) : logPoints a (a * q ^ 2) 3 = [a, a * q, a * q ^ 2] := by
  have e : a * q ^ 2 / a = q ^ 2 := by field_simp
  unfold logPoints
  rw [e]
  simp only [List.range_succ, List.range_zero, List.nil_append, List.cons_append, List.map_cons, List.map_nil]
  norm_num
  left
  rw [← sqrt_eq_rpow, sqrt_sq hq.le]

/-- C95 is violated for adjacent ranges: the counts of the parts are not those of the whole, as each has
its own energies. -/
theorem C95_additive_violates : ∃ a b c : ℝ, npredRange [1, 4, 16] [1, 1, 1] (fun _ => 1) 1 4 = .ok a ∧
    npredRange [1, 4, 16] [1, 1, 1] (fun _ => 1) 4 16 = .ok b ∧ npredRange [1, 4, 16] [1, 1, 1] (fun _ => 1) 1 16 = .ok c ∧ a + b < c := by
  have hX : ([1, 1, 1] : List ℝ) = (List.range ([1, 4, 16] : List ℝ).length).map fun _ => (1 : ℝ) := by simp [List.range_succ]
  have l4 : log 4 = 2 * log 2 := by rw [show (4 : ℝ) = 2 ^ 2 by norm_num, log_pow]; norm_num
  have l8 : log 8 = 3 * log 2 := by rw [show (8 : ℝ) = 2 ^ 3 by norm_num, log_pow]; norm_num
  have l16 : log 16 = 4 * log 2 := by rw [show (16 : ℝ) = 2 ^ 4 by norm_num, log_pow]; norm_num
  have l2 : 0 < log 2 := log_pos (by norm_num)
  have p1 : logPoints 1 4 3 = [1, 2, 4] := by have := points3 (a := 1) (q := 2) (by norm_num) (by norm_num); norm_num at this; exact this
  have p2 : logPoints 4 16 3 = [4, 8, 16] := by have := points3 (a := 4) (q := 2) (by norm_num) (by norm_num); norm_num at this; exact this
  have p3 : logPoints 1 16 3 = [1, 4, 16] := by have := points3 (a := 1) (q := 4) (by norm_num) (by norm_num); norm_num at this; exact this
  refine ⟨_, _, _, range_const grid3 hX _ (by norm_num) (by norm_num) (by norm_num), range_const grid3 hX _ (by norm_num) (by norm_num) (by norm_num),
    range_const grid3 hX _ (by norm_num) (by norm_num) (by norm_num), ?_⟩
  simp only [List.length_cons, List.length_nil, Nat.zero_add, Nat.reduceAdd, p1, p2, p3, List.range_succ, List.range_zero, List.nil_append,
    List.cons_append, List.map_cons, List.map_nil, counts, List.zipWith_cons_cons, List.zipWith_nil_left, TrapQuad.logTrapezoid, TrapQuad.trapezoid]
  rw [l4, l8, l16, log_one]
  linarith

/-- C95 is violated for energies that are not in equal steps of the logarithm, as those of a counts map
may be: even at one of the energies themselves the exposure is not the one given there. -/
theorem C95_steps_violates (x0 x1 x2 : ℝ) :
    ∃ E' X', arrays [1, 2, 16] [x0, x1, x2] 2 16 = .ok (E', X') ∧ E'[0]? = some 2 ∧ X'[0]? = some ((x0 + x1) / 2) := by
  have l2 : 0 < log 2 := log_pos (by norm_num)
  have l8 : log 8 = 3 * log 2 := by rw [show (8 : ℝ) = 2 ^ 3 by norm_num, log_pow]; norm_num
  have l16 : log 16 = 4 * log 2 := by rw [show (16 : ℝ) = 2 ^ 4 by norm_num, log_pow]; norm_num
  have e1 : log (16 / 1) / (((3 : ℕ) : ℝ) - 1) = 2 * log 2 := by rw [div_one, l16]; norm_num; ring
  have e2 : log (16 / 2) / (((3 : ℕ) : ℝ) - 1) = 3 / 2 * log 2 := by norm_num; rw [l8]; ring
  have pt : ∀ (q : ℝ) (i : ℕ), ⌊q⌋₊ = i → -1 < q → point [1, 2, 16] [x0, x1, x2] 1 (2 * log 2) (q * (2 * log 2)) =
      (if i = 2 then .ok x2 else do
        let y0 ← vat [x0, x1, x2] i
        let a0 ← vat [1, 2, 16] i
        let y1 ← vat [x0, x1, x2] (i + 1)
        .ok (y0 + (q * (2 * log 2) - log a0) / (2 * log 2) * (y1 - y0))) := by
    intro q i hq h1
    unfold point
    rw [log_one, sub_zero, mul_div_assoc, div_self (by positivity), mul_one, toSize_ok h1, Res.bind_ok, hq]
    rfl
  have f0 : ⌊(1 / 2 : ℝ)⌋₊ = 0 := by rw [Nat.floor_eq_zero]; norm_num
  have f1 : ⌊(5 / 4 : ℝ)⌋₊ = 1 := by rw [Nat.floor_eq_iff (by norm_num)]; norm_num
  have f2 : ⌊(2 : ℝ)⌋₊ = 2 := by norm_num
  refine ⟨[exp (1 / 2 * (2 * log 2)), exp (5 / 4 * (2 * log 2)), exp (2 * (2 * log 2))],
    [x0 + (1 / 2 * (2 * log 2) - log 1) / (2 * log 2) * (x1 - x0), x1 + (5 / 4 * (2 * log 2) - log 2) / (2 * log 2) * (x2 - x1), x2], ?_, ?_, ?_⟩
  · unfold arrays
    rw [vget_lt _ _ (by simp), Res.bind_ok, vget_lt _ _ (by simp), Res.bind_ok]
    simp only [List.getElem_cons_zero, List.length_cons, List.length_nil, Nat.zero_add, Nat.reduceAdd, Nat.reduceSub, List.getElem_cons_succ]
    have lo : lower (1 : ℝ) 2 = 2 := by unfold lower; rw [if_neg (by norm_num)]
    have hi : upper (16 : ℝ) 16 = 16 := by unfold upper; rw [if_neg (by norm_num)]
    rw [lo, hi]
    unfold choose
    rw [if_neg (by norm_num)]
    unfold resample
    simp only [List.length_cons, List.length_nil, Nat.zero_add, Nat.reduceAdd]
    rw [e1, e2, if_neg (by rintro (h | h) <;> [simp at h; linarith])]
    have a0 : ((0 : ℕ) : ℝ) * (3 / 2 * log 2) + log 2 = 1 / 2 * (2 * log 2) := by push_cast; ring
    have a1 : ((0 + 1 : ℕ) : ℝ) * (3 / 2 * log 2) + log 2 = 5 / 4 * (2 * log 2) := by push_cast; ring
    have a2 : ((0 + 1 + 1 : ℕ) : ℝ) * (3 / 2 * log 2) + log 2 = 2 * (2 * log 2) := by push_cast; ring
    simp only [loop]
    rw [a0, a1, a2, pt _ 0 f0 (by norm_num), pt _ 1 f1 (by norm_num), pt _ 2 f2 (by norm_num)]
    simp [vat]
  · simp only [List.getElem?_cons_zero, Option.some.injEq]
    rw [show 1 / 2 * (2 * log 2) = log 2 by ring, exp_log (by norm_num)]
  · simp only [List.getElem?_cons_zero, Option.some.injEq, log_one]
    field_simp
    ring

end

end Verif.Npred
