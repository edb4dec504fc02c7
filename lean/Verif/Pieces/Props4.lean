import Verif.Pieces.Props3
set_option linter.unusedSimpArgs false
set_option linter.unusedVariables false
/-
C30: the reported derivatives of the piecewise power law are the true ones, except by the two
outer indices when their scale is not one.
-/
namespace Verif.Pieces
open Verif.Spectra Verif.Vec

variable {b : List ℝ} {x : ℝ} {dec : Bool}

theorem setv_ne (p : Pars) {i m : Nat} (t : ℝ) (h : m ≠ i) : setv p i t m = p m := by
  simp only [setv, Function.update_of_ne h]

theorem setv_eq (p : Pars) (i : Nat) (t : ℝ) : (setv p i t i).tv = t * (p i).scale := by
  simp only [setv, Function.update_self, P.tv]

theorem amp_setv (p : Pars) {i : Nat} (t : ℝ) (h : dec = true ∨ i ≠ 2) : amp dec (setv p i t) = amp dec p := by
  unfold amp
  rcases h with h | h
  · simp [h]
  · rw [setv_ne p t (Ne.symm h)]

theorem rel_setv (p : Pars) {k : Nat} (t : ℝ) (h : dec = true ∨ k ≠ 0) (m : Nat) :
    rel dec (setv p (2 + k) t) m = if m = k then t * (p (2 + k)).scale else rel dec p m := by
  unfold rel
  by_cases hm : m = k
  · subst hm
    rw [if_pos rfl, if_neg, setv_eq]
    rintro ⟨h1, h2⟩
    rcases h with h | h
    · rw [h] at h2; cases h2
    · exact h h1
  · rw [if_neg hm, setv_ne p t (show 2 + m ≠ 2 + k by omega)]

theorem rel_self (p : Pars) {k : Nat} (h : dec = true ∨ k ≠ 0) : rel dec p k = (p (2 + k)).tv := by
  have := rel_setv (dec := dec) p (k := k) (p (2 + k)).value h k
  rw [setv_self, if_pos rfl] at this
  exact this

/-- The true derivative by a node. -/
theorem node_partial (h : Increasing b) (hb : b ≠ []) (p : Pars) {k : Nat} (hk : k < b.length) (hx : 0 < x)
    (hd : dec = true ∨ k ≠ 0) (hpos : ∀ m < b.length, 0 < rel dec p m) {F : Pars → ℝ}
    (hF : ∀ q, PWPL.value dec b q x = .ok (F q)) :
    Partial F p (2 + k) (F p / (p (2 + k)).value * hat b x k) := by
  have hrk := hpos k hk
  have htv := rel_self (dec := dec) p hd
  have hval : (p (2 + k)).value ≠ 0 := by
    intro e; rw [htv, P.tv, e, zero_mul] at hrk; exact lt_irrefl _ hrk
  have hsc : (p (2 + k)).scale ≠ 0 := by
    intro e; rw [htv, P.tv, e, mul_zero] at hrk; exact lt_irrefl _ hrk
  have hdiv : ∀ w : ℝ, F p / (p (2 + k)).value * w = F p / (p (2 + k)).tv * w * (p (2 + k)).scale := by
    intro w; rw [P.tv]; field_simp
  have hA : ∀ t, amp dec (setv p (2 + k) t) = amp dec p :=
    fun t => amp_setv p t (hd.imp_right (fun h => by omega))
  have hP0 : ∀ t, (setv p (2 + k) t 0).tv = (p 0).tv := fun t => by rw [setv_ne p t (by omega)]
  have hP1 : ∀ t, (setv p (2 + k) t 1).tv = (p 1).tv := fun t => by rw [setv_ne p t (by omega)]
  rcases cases_upper b x hb with hu | hu | ⟨j, hu, hj⟩
  · have hFq : ∀ q, F q = amp dec q * rel dec q 0 * (x / val b 0) ^ (q 0).tv := fun q => by
      have := hF q; rw [pw_low h hb q hu] at this; exact (Res.ok.inj this).symm
    rw [hat_low hu]
    by_cases k0 : k = 0
    · rw [if_pos k0, hdiv, mul_one]
      refine partial_norm (amp dec p * (x / val b 0) ^ (p 0).tv) (fun t => ?_) (by rw [← htv]; exact hrk.ne') rfl
      rw [hFq, hA, hP0, rel_setv p t hd, if_pos k0.symm]; ring
    · rw [if_neg k0, mul_zero]
      refine partial_zero fun t => ?_
      rw [hFq, hFq, hA, hP0, rel_setv p t hd, if_neg (Ne.symm k0)]
  · have hFq : ∀ q, F q = amp dec q * rel dec q (b.length - 1) * (x / val b (b.length - 1)) ^ (q 1).tv := fun q => by
      have := hF q; rw [pw_high h hb q hu] at this; exact (Res.ok.inj this).symm
    rw [hat_high hb hu]
    by_cases k0 : k = b.length - 1
    · rw [if_pos k0, hdiv, mul_one]
      refine partial_norm (amp dec p * (x / val b (b.length - 1)) ^ (p 1).tv) (fun t => ?_)
        (by rw [← htv]; exact hrk.ne') rfl
      rw [hFq, hA, hP1, rel_setv p t hd, if_pos k0.symm]; ring
    · rw [if_neg k0, mul_zero]
      refine partial_zero fun t => ?_
      rw [hFq, hFq, hA, hP1, rel_setv p t hd, if_neg (Ne.symm k0)]
  · have hFq : ∀ q, F q = amp dec q * rel dec q j * (x / val b j) ^
        (Real.log (rel dec q (j + 1) / rel dec q j) / Real.log (val b (j + 1) / val b j)) := fun q => by
      have := hF q; rw [pw_mid h q hu hj] at this; exact (Res.ok.inj this).symm
    have hL := (log_ratio_pos h hj).ne'
    have hxe : 0 < x / val b j := div_pos hx (bpos h (by omega))
    have hr0 := hpos j (by omega)
    have hr1 := hpos (j + 1) hj
    rw [hat_mid hu hj]
    by_cases k0 : k = j
    · subst k0
      rw [if_pos rfl, hdiv]
      refine partial_of (g := fun a => amp dec p * a * (x / val b k) ^
        (Real.log (rel dec p (k + 1) / a) / Real.log (val b (k + 1) / val b k))) (fun t => ?_)
        (((idd _).const_mul _).fun_mul (cpow hxe ((lg (cdiv _ (idd _) (by rw [← htv]; exact hr0.ne')) (by
          rw [← htv]; exact div_pos hr1 hr0)).div_const _))) ?_
      · rw [hFq, hA, rel_setv p t hd, rel_setv p t hd, if_pos rfl, if_neg (by omega)]
      · rw [hFq, ← htv]
        have := hr0.ne'
        have := hr1.ne'
        field_simp
        ring
    · rw [if_neg k0]
      by_cases k1 : k = j + 1
      · subst k1
        rw [if_pos rfl, hdiv]
        refine partial_of (g := fun a => amp dec p * rel dec p j * (x / val b j) ^
          (Real.log (a / rel dec p j) / Real.log (val b (j + 1) / val b j))) (fun t => ?_)
          ((cpow hxe ((lg ((idd _).div_const _) (by rw [← htv]; exact div_pos hr1 hr0)).div_const _)).const_mul _) ?_
        · rw [hFq, hA, rel_setv p t hd, rel_setv p t hd, if_pos rfl, if_neg (by omega)]
        · rw [hFq, ← htv]
          have := hr0.ne'
          have := hr1.ne'
          field_simp
      · rw [if_neg k1, mul_zero]
        refine partial_zero fun t => ?_
        rw [hFq, hFq, hA, rel_setv p t hd, rel_setv p t hd, if_neg (Ne.symm k0), if_neg (Ne.symm k1)]

/-- The true derivative by the common factor. -/
theorem amp_partial (h : Increasing b) (hb : b ≠ []) (p : Pars) (hn : (p 2).tv ≠ 0) {F : Pars → ℝ}
    (hF : ∀ q, PWPL.value false b q x = .ok (F q)) : Partial F p 2 (F p / (p 2).value) := by
  have hval : (p 2).value ≠ 0 := by intro e; rw [P.tv, e, zero_mul] at hn; exact hn rfl
  have hsc : (p 2).scale ≠ 0 := by intro e; rw [P.tv, e, mul_zero] at hn; exact hn rfl
  have e : F p / (p 2).value = F p / (p 2).tv * (p 2).scale := by rw [P.tv]; field_simp
  have hr : ∀ t m, rel false (setv p 2 t) m = rel false p m := by
    intro t m
    unfold rel
    by_cases hm : m = 0
    · simp [hm]
    · simp only [hm, false_and, ↓reduceIte, setv_ne p t (show 2 + m ≠ 2 by omega)]
  have hA : ∀ t, amp false (setv p 2 t) = t * (p 2).scale := fun t => by simp only [amp, Bool.false_eq_true, ↓reduceIte, setv_eq]
  have hP0 : ∀ t, (setv p 2 t 0).tv = (p 0).tv := fun t => by rw [setv_ne p t (by omega)]
  have hP1 : ∀ t, (setv p 2 t 1).tv = (p 1).tv := fun t => by rw [setv_ne p t (by omega)]
  rw [e]
  have fin : ∀ c : ℝ, (∀ t, F (setv p 2 t) = t * (p 2).scale * c) → Partial F p 2 (F p / (p 2).tv * (p 2).scale) :=
    fun c hc => partial_norm c hc hn rfl
  rcases cases_upper b x hb with hu | hu | ⟨j, hu, hj⟩
  · refine fin (rel false p 0 * (x / val b 0) ^ (p 0).tv) fun t => ?_
    have := hF (setv p 2 t); rw [pw_low h hb _ hu, hr, hA, hP0] at this
    rw [← Res.ok.inj this]; ring
  · refine fin (rel false p (b.length - 1) * (x / val b (b.length - 1)) ^ (p 1).tv) fun t => ?_
    have := hF (setv p 2 t); rw [pw_high h hb _ hu, hr, hA, hP1] at this
    rw [← Res.ok.inj this]; ring
  · refine fin (rel false p j * (x / val b j) ^
        (Real.log (rel false p (j + 1) / rel false p j) / Real.log (val b (j + 1) / val b j))) fun t => ?_
    have := hF (setv p 2 t); rw [pw_mid h _ hu hj, hr, hr, hA] at this
    rw [← Res.ok.inj this]; ring

theorem rel_pos {p : Pars} {m : Nat} (h0 : 0 < flux dec p 0) (hm : 0 < flux dec p m) : 0 < rel dec p m := by
  cases dec
  · simp only [flux, Bool.false_eq_true, false_or, ↓reduceIte, add_zero] at h0 hm
    unfold rel
    by_cases e : m = 0
    · simp [e]
    · rw [if_neg e] at hm
      simp only [e, false_and, ↓reduceIte]
      exact pos_of_mul_pos_left hm h0.le
  · simpa [flux, rel] using hm

/-- The derivatives by the nodes are right, for all scales: at every energy, decoupled or
not, unless there is only one (decoupled) node. -/
theorem C30_node_derivatives (h : Increasing b) (hb : b ≠ []) (dec : Bool) (p : Pars) (hx : 0 < x)
    (hpos : ∀ k < b.length, 0 < flux dec p k) (hone : dec = true → b.length ≠ 1) {k : Nat} (hk : k < b.length)
    {F : Pars → ℝ} (hF : ∀ q, PWPL.value dec b q x = .ok (F q)) :
    ∃ d, PWPL.deriv dec b p (2 + k) x = .ok d ∧ Partial F p (2 + k) d := by
  have hn : 0 < b.length := List.length_pos_iff.mpr hb
  have hrel : ∀ m < b.length, 0 < rel dec p m := fun m hm => rel_pos (hpos 0 hn) (hpos m hm)
  by_cases hd : dec = true ∨ k ≠ 0
  · refine ⟨_, node_deriv h hb p hk (fun e => ?_) (fun e => ?_) (fun e _ => hone e) (hF p),
      node_partial h hb p hk hx hd hrel hF⟩
    · intro hz
      have := hpos 0 hn
      simp only [flux, or_true, ↓reduceIte, add_zero, P.tv, hz, zero_mul, lt_irrefl] at this
    · rcases hd with hd | hd
      · rw [e] at hd; cases hd
      · omega
  · have hk0 : k = 0 := by by_contra hc; exact hd (.inr hc)
    have hdf : dec = false := by
      cases dec
      · rfl
      · exact absurd (.inl rfl) hd
    subst hk0 hdf
    have htv : (p 2).tv ≠ 0 := by
      have := hpos 0 hn
      simp only [flux, or_true, ↓reduceIte, add_zero] at this
      exact this.ne'
    refine ⟨F p / (p 2).value, ?_, amp_partial h hb p htv hF⟩
    simp only [PWPL.deriv, if_neg (show ¬ b.length + 1 < 2 + 0 by omega), if_neg (show ¬ 2 + 0 < 2 by omega),
      Bool.false_eq_true, ↓reduceIte, Nat.add_sub_cancel_left, PWPL.derivCoupled, hF p, PWPL.normScaled,
      if_neg (show ¬ b.length ≤ 0 by omega), Res.bind_ok]

/-- A single decoupled node: the derivative at its energy reads outside the vector. -/
theorem C30_single_node_violates (e : ℝ) (he : 0 < e) (p : Pars) : PWPL.deriv true [e] p 2 e = .ub := by
  have h : Increasing [e] := ⟨by simp, by simpa using he⟩
  obtain ⟨v, hv⟩ := pw_exists (x := e) h (by simp) true p
  simp [PWPL.deriv, PWPL.derivDecoupled, hv, PWPL.normScaled, vget]

/-- What is reported for the two outer indices, and the true derivatives. -/
theorem outer (h : Increasing b) (hb : b ≠ []) (dec : Bool) (p : Pars) (hx : 0 < x) {i : Nat} (hi : i < 2)
    {F : Pars → ℝ} (hF : ∀ q, PWPL.value dec b q x = .ok (F q)) :
    ∃ d, PWPL.deriv dec b p i x = .ok d ∧ Partial F p i (d * (p i).scale) ∧
      (F p ≠ 0 → (i = 0 → x < val b 0) → (i = 1 → val b (b.length - 1) < x) → d ≠ 0) := by
  have hn : 0 < b.length := List.length_pos_iff.mpr hb
  have hl : b.length - 1 < b.length := by omega
  have hA : ∀ t, amp dec (setv p i t) = amp dec p := fun t => amp_setv p t (.inr (by omega))
  have hr : ∀ t m, rel dec (setv p i t) m = rel dec p m := fun t m => by
    unfold rel; rw [setv_ne p t (show 2 + m ≠ i by omega)]
  have hfix : (∀ t, F (setv p i t) = F p) → Partial F p i (0 * (p i).scale) := fun hc => by
    rw [zero_mul]; exact partial_zero hc
  simp only [PWPL.deriv, if_neg (show ¬ b.length + 1 < i by omega), if_pos hi]
  obtain rfl | rfl : i = 0 ∨ i = 1 := by omega
  · simp only [PWPL.derivIndex, ↓reduceIte, vget_val hn, Res.bind_ok]
    have hP1 : ∀ t, (setv p 0 t 1).tv = (p 1).tv := fun t => by rw [setv_ne p t (by omega)]
    by_cases hlt : x < val b 0
    · have hu : upperBound b x = 0 := upperBound_eq h (Nat.zero_le _) (by omega) (fun _ => hlt)
      have hFq : ∀ q, F q = amp dec q * rel dec q 0 * (x / val b 0) ^ (q 0).tv := fun q => by
        have := hF q; rw [pw_low h hb q hu] at this; exact (Res.ok.inj this).symm
      have h0 := bpos h hn
      refine ⟨F p * Real.log (x / val b 0), by rw [if_pos hlt, hF p, Res.bind_ok], ?_, fun hne _ _ => ?_⟩
      · refine partial_of (g := fun a => amp dec p * rel dec p 0 * (x / val b 0) ^ a) (fun t => ?_)
          ((cpow (div_pos hx h0) (idd _)).const_mul _) ?_
        · rw [hFq, hA, hr, setv_eq]
        · rw [hFq]; ring
      · exact mul_ne_zero hne (Real.log_neg (div_pos hx h0) ((div_lt_one h0).mpr hlt)).ne
    · refine ⟨0, by rw [if_neg hlt], hfix fun t => ?_, fun _ h1 _ => absurd (h1 trivial) hlt⟩
      rcases cases_upper b x hb with hu | hu | ⟨j, hu, hj⟩
      · exact absurd (upperBound_above h hu.le hn) hlt
      · have h1 := hF (setv p 0 t)
        have h2 := hF p
        rw [pw_high h hb _ hu, hA, hr, hP1] at h1
        rw [pw_high h hb _ hu, h1] at h2
        exact Res.ok.inj h2
      · have h1 := hF (setv p 0 t)
        have h2 := hF p
        rw [pw_mid h _ hu hj, hA, hr, hr] at h1
        rw [pw_mid h _ hu hj, h1] at h2
        exact Res.ok.inj h2
  · simp only [PWPL.derivIndex, if_neg (show ¬ 1 = 0 by omega), vget_val hl, Res.bind_ok]
    have hP0 : ∀ t, (setv p 1 t 0).tv = (p 0).tv := fun t => by rw [setv_ne p t (by omega)]
    by_cases hlt : val b (b.length - 1) < x
    · have hu : upperBound b x = b.length :=
        upperBound_eq h le_rfl (fun i hi => (mono h (by omega) hl).trans hlt.le) (fun hc => absurd hc (lt_irrefl _))
      have hFq : ∀ q, F q = amp dec q * rel dec q (b.length - 1) * (x / val b (b.length - 1)) ^ (q 1).tv := fun q => by
        have := hF q; rw [pw_high h hb q hu] at this; exact (Res.ok.inj this).symm
      have h0 := bpos h hl
      refine ⟨F p * Real.log (x / val b (b.length - 1)), by rw [if_pos hlt, hF p, Res.bind_ok], ?_, fun hne _ _ => ?_⟩
      · refine partial_of (g := fun a => amp dec p * rel dec p (b.length - 1) * (x / val b (b.length - 1)) ^ a) (fun t => ?_)
          ((cpow (div_pos hx h0) (idd _)).const_mul _) ?_
        · rw [hFq, hA, hr, setv_eq]
        · rw [hFq]; ring
      · exact mul_ne_zero hne (Real.log_pos ((one_lt_div h0).mpr hlt)).ne'
    · refine ⟨0, by rw [if_neg hlt], hfix fun t => ?_, fun _ _ h1 => absurd (h1 trivial) hlt⟩
      rcases cases_upper b x hb with hu | hu | ⟨j, hu, hj⟩
      · have h1 := hF (setv p 1 t)
        have h2 := hF p
        rw [pw_low h hb _ hu, hA, hr, hP0] at h1
        rw [pw_low h hb _ hu, h1] at h2
        exact Res.ok.inj h2
      · -- at the last node the power is that of one
        have e : x = val b (b.length - 1) := le_antisymm (not_lt.mp hlt) (upperBound_below (by omega))
        have h1 := hF (setv p 1 t)
        have h2 := hF p
        rw [pw_high h hb _ hu, hA, hr, e, div_self (bpos h hl).ne', Real.one_rpow] at h1
        rw [pw_high h hb _ hu, e, div_self (bpos h hl).ne', Real.one_rpow, h1] at h2
        exact Res.ok.inj h2
      · have h1 := hF (setv p 1 t)
        have h2 := hF p
        rw [pw_mid h _ hu hj, hA, hr, hr] at h1
        rw [pw_mid h _ hu hj, h1] at h2
        exact Res.ok.inj h2

/-- The derivatives by the outer indices are right if their scale is one. -/
theorem C30_index_derivatives_partial (h : Increasing b) (hb : b ≠ []) (dec : Bool) (p : Pars) (hx : 0 < x)
    {i : Nat} (hi : i < 2) (hs : (p i).scale = 1) {F : Pars → ℝ} (hF : ∀ q, PWPL.value dec b q x = .ok (F q)) :
    ∃ d, PWPL.deriv dec b p i x = .ok d ∧ Partial F p i d := by
  obtain ⟨d, h1, h2, -⟩ := outer h hb dec p hx hi hF
  rw [hs, mul_one] at h2
  exact ⟨d, h1, h2⟩

/-- With another scale they are wrong by that factor, wherever the index matters. -/
theorem C30_index_scale_violates (h : Increasing b) (hb : b ≠ []) (dec : Bool) (p : Pars) (hx : 0 < x)
    {i : Nat} (hi : i < 2) (hs : (p i).scale ≠ 1) {F : Pars → ℝ} (hF : ∀ q, PWPL.value dec b q x = .ok (F q))
    (hne : F p ≠ 0) (h0 : i = 0 → ∀ e, b.head? = some e → x < e) (h1 : i = 1 → ∀ e, b.getLast? = some e → e < x) :
    ∃ d, PWPL.deriv dec b p i x = .ok d ∧ ¬ Partial F p i d ∧ Partial F p i (d * (p i).scale) := by
  have hn : 0 < b.length := List.length_pos_iff.mpr hb
  obtain ⟨d, hd, hp, hd0⟩ := outer h hb dec p hx hi hF
  have hne0 := hd0 hne (fun e => h0 e _ (by rw [List.head?_eq_getElem?]; exact getElem?_val hn))
    (fun e => h1 e _ (by rw [List.getLast?_eq_getElem?]; exact getElem?_val (by omega)))
  refine ⟨d, hd, fun hc => ?_, hp⟩
  have := partial_unique hc hp
  exact hs (mul_left_cancel₀ hne0 (by rw [← this, mul_one]))

/-! ### Concrete cases -/

/-- Five, fifteen and twenty at 10, 100 and 1000. -/
def exPw (s : ℝ) : Pars := fun i => ⟨[-1, -2, 5, 3, 4].getD i 0, if i < 2 then s else 1⟩

theorem exPw_pos (s : ℝ) : ∀ k < [10, 100, 1000].length, 0 < flux false (exPw s) k := by
  intro k hk
  have : k = 0 ∨ k = 1 ∨ k = 2 := by simp at hk; omega
  rcases this with rfl | rfl | rfl <;> norm_num [flux, P.tv, exPw]

example : ∃ (F : Pars → ℝ) (d : ℝ), (∀ q, PWPL.value false [10, 100, 1000] q 500 = .ok (F q)) ∧
    PWPL.deriv false [10, 100, 1000] (exPw 1) 3 500 = .ok d ∧ Partial F (exPw 1) 3 d := by
  choose F hF using fun q => pw_exists (x := 500) exInc (by simp) false q
  obtain ⟨d, h1, h2⟩ := C30_node_derivatives exInc (by simp) false (exPw 1) (by norm_num) (exPw_pos 1) (by simp)
    (k := 1) (by simp) hF
  exact ⟨F, d, hF, h1, h2⟩

example : ∃ (F : Pars → ℝ) (d : ℝ), (∀ q, PWPL.value false [10, 100, 1000] q 5 = .ok (F q)) ∧
    PWPL.deriv false [10, 100, 1000] (exPw 2) 0 5 = .ok d ∧ ¬ Partial F (exPw 2) 0 d := by
  choose F hF using fun q => pw_exists (x := 5) exInc (by simp) false q
  have hne : F (exPw 2) ≠ 0 := by
    have hu : upperBound [10, 100, 1000] 5 = 0 := upperBound_eq exInc (Nat.zero_le _) (by omega) (fun _ => by norm_num)
    have := hF (exPw 2)
    rw [pw_low exInc (by simp) _ hu] at this
    rw [← Res.ok.inj this]
    have : (0:ℝ) < (5 / val [10, 100, 1000] 0) ^ (exPw 2 0).tv := Real.rpow_pos_of_pos (by norm_num) _
    have h2 : amp false (exPw 2) * rel false (exPw 2) 0 = 5 := by norm_num [amp, rel, exPw, P.tv]
    rw [h2]; positivity
  obtain ⟨d, h1, h2, -⟩ := C30_index_scale_violates exInc (by simp) false (exPw 2) (by norm_num) (i := 0) (by omega)
    (by norm_num [exPw]) hF hne (fun _ e he => by
      obtain rfl : (10 : ℝ) = e := by simpa using he
      norm_num) (by simp)
  exact ⟨F, d, hF, h1, h2⟩

end Verif.Pieces
