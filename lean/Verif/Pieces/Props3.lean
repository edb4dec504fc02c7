import Verif.Pieces.Props2
set_option linter.unusedSimpArgs false
set_option linter.unusedVariables false
/-
C30: derivatives of the piecewise power law.
-/
namespace Verif.Pieces
open Verif.Spectra Verif.Vec

variable {b : List ℝ} {x : ℝ} {dec : Bool}

/-- Weight of the `k`-th node at an energy in the range found by `upper_bound`. -/
noncomputable def hat (b : List ℝ) (x : ℝ) (k : Nat) : ℝ :=
  if upperBound b x = 0 then (if k = 0 then 1 else 0)
  else if upperBound b x = b.length then (if k = b.length - 1 then 1 else 0)
  else
    let j := upperBound b x - 1
    let t := Real.log (x / val b j) / Real.log (val b (j + 1) / val b j)
    if k = j then 1 - t else if k = j + 1 then t else 0

theorem hat_low (hu : upperBound b x = 0) (k : Nat) : hat b x k = if k = 0 then 1 else 0 := by
  simp only [hat, if_pos hu]

theorem hat_high (hb : b ≠ []) (hu : upperBound b x = b.length) (k : Nat) :
    hat b x k = if k = b.length - 1 then 1 else 0 := by
  have hn : 0 < b.length := List.length_pos_iff.mpr hb
  simp only [hat, if_neg (show ¬ upperBound b x = 0 by omega), if_pos hu]

theorem hat_mid {j : Nat} (hu : upperBound b x = j + 1) (hj : j + 1 < b.length) (k : Nat) :
    hat b x k = if k = j then 1 - Real.log (x / val b j) / Real.log (val b (j + 1) / val b j)
      else if k = j + 1 then Real.log (x / val b j) / Real.log (val b (j + 1) / val b j) else 0 := by
  have e : upperBound b x - 1 = j := by omega
  simp only [hat, if_neg (show ¬ upperBound b x = 0 by omega), if_neg (show ¬ upperBound b x = b.length by omega), e]

theorem inner_eq (h : Increasing b) (hb : b ≠ []) {k : Nat} (hk : k < b.length) (f : ℝ)
    (hne : ¬ (k = b.length - 1 ∧ val b k ≤ x)) (hne0 : ¬ (k = 0 ∧ upperBound b x = 0)) : PWPL.inner b k x f = .ok (f * hat b x k) := by
  have hn : 0 < b.length := List.length_pos_iff.mpr hb
  unfold PWPL.inner
  have hfirst : PWPL.within b k x = .ok (decide (k + 1 < b.length ∧ upperBound b x = k + 1)) := by
    unfold PWPL.within
    rw [vget_val hk, Res.bind_ok]
    by_cases hc : val b k ≤ x ∧ k < b.length - 1
    · rw [if_pos hc, vget_val (show k + 1 < b.length by omega), Res.bind_ok]
      congr 1
      rw [decide_eq_decide]
      constructor
      · intro hx
        exact ⟨by omega, upperBound_eq h (by omega) (fun i hi => (mono h (by omega) hk).trans hc.1) fun _ => hx⟩
      · rintro ⟨h1, h2⟩; exact upperBound_above h h2.le h1
    · rw [if_neg hc]
      congr 1
      rw [eq_comm, decide_eq_false_iff_not]
      rintro ⟨h1, h2⟩
      exact hc ⟨upperBound_below (by omega), by omega⟩
  rw [hfirst, Res.bind_ok, vget_val hk, Res.bind_ok]
  by_cases h1 : k + 1 < b.length ∧ upperBound b x = k + 1
  · rw [if_pos (by simpa using h1), vget_val h1.1, Res.bind_ok, hat_mid h1.2 h1.1, if_pos rfl]
  · rw [if_neg (by simpa using h1)]
    by_cases k0 : 0 < k
    · rw [if_pos k0, vget_val (show k - 1 < b.length by omega), Res.bind_ok]
      have hkk : k - 1 + 1 = k := by omega
      by_cases h2 : val b (k - 1) < x ∧ x < val b k
      · have hu : upperBound b x = k - 1 + 1 :=
          upperBound_eq h (by omega) (fun i hi => (mono h (by omega) (by omega)).trans h2.1.le) (fun _ => by rw [hkk]; exact h2.2)
        rw [if_pos h2, hat_mid hu (by omega), if_neg (by omega), if_pos (by omega), hkk]
      · rw [if_neg h2]
        have : hat b x k = 0 := by
          rcases cases_upper b x hb with hu | hu | ⟨j, hu, hj⟩
          · rw [hat_low hu, if_neg (by omega)]
          · rw [hat_high hb hu, if_neg]
            intro e; exact hne ⟨e, by rw [e]; exact upperBound_below (by omega)⟩
          · rw [hat_mid hu hj]
            have a1 : k ≠ j := by rintro rfl; exact h1 ⟨hj, hu⟩
            rw [if_neg a1]
            split
            · rename_i e
              subst e
              have b1 : x < val b (j + 1) := upperBound_above h hu.le hj
              have b2 : val b j ≤ x := upperBound_below (by omega)
              have b3 : ¬ val b j < x := fun hc => h2 ⟨hc, b1⟩
              rw [le_antisymm (not_lt.mp b3) b2, div_self (bpos h (by omega)).ne', Real.log_one, zero_div]
            · rfl
        rw [this, mul_zero]
    · rw [if_neg k0]
      have k0' : k = 0 := by omega
      subst k0'
      have : hat b x 0 = 0 := by
        rcases cases_upper b x hb with hu | hu | ⟨j, hu, hj⟩
        · exact absurd ⟨rfl, hu⟩ hne0
        · rw [hat_high hb hu, if_neg]
          intro e
          exact hne ⟨e, upperBound_below (by omega)⟩
        · rw [hat_mid hu hj, if_neg (by rintro rfl; exact h1 ⟨hj, hu⟩), if_neg (by omega)]
      rw [this, mul_zero]

/-- The case of the last node, for `k > 0`. -/
theorem last_eq (h : Increasing b) (hb : b ≠ []) {k : Nat} (hk : k < b.length) (k0 : 0 < k) (f : ℝ)
    (hb' : ¬ (k = b.length - 1 ∧ val b (b.length - 1) < x)) :
    (do
      let e0 ← vget b (k - 1)
      if k = b.length - 1 ∧ e0 < x then
        let ek ← vget b k
        .ok (f * (Real.log (x / e0) / Real.log (ek / e0)))
      else PWPL.inner b k x f) = .ok (f * hat b x k) := by
  have hkk : k - 1 + 1 = k := by omega
  have hr := log_ratio_pos h (j := k - 1) (by omega)
  rw [hkk] at hr
  rw [vget_val (show k - 1 < b.length by omega), Res.bind_ok]
  by_cases hc : k = b.length - 1 ∧ val b (k - 1) < x
  · rw [if_pos hc, vget_val hk, Res.bind_ok]
    have hle : x ≤ val b k := by
      by_contra hcon
      exact hb' ⟨hc.1, by rw [← hc.1]; exact not_le.mp hcon⟩
    rcases lt_or_eq_of_le hle with hlt | rfl
    · have hu : upperBound b x = k - 1 + 1 :=
        upperBound_eq h (by omega) (fun i hi => (mono h (by omega) (by omega)).trans hc.2.le) (fun _ => by rw [hkk]; exact hlt)
      rw [hat_mid hu (by omega), if_neg (by omega), if_pos (by omega), hkk]
    · have hu : upperBound b (val b k) = b.length :=
        upperBound_eq h le_rfl (fun i hi => mono h (by omega) hk) (fun hc => absurd hc (lt_irrefl _))
      rw [hat_high hb hu, if_pos hc.1, div_self hr.ne']
  · rw [if_neg hc]
    refine inner_eq h hb hk f (fun hcon => ?_) (fun hcon => by omega)
    exact hc ⟨hcon.1, (mono_lt h (by omega) hk).trans_le hcon.2⟩

/-- What is reported for a node, decoupled or not. -/
theorem node_deriv (h : Increasing b) (hb : b ≠ []) (p : Pars) {k : Nat} (hk : k < b.length)
    (h2 : dec = false → (p 2).value ≠ 0) (hk0 : dec = false → 0 < k)
    (h1 : dec = true → k = 0 → b.length ≠ 1) {v : ℝ} (hv : PWPL.value dec b p x = .ok v) :
    PWPL.deriv dec b p (2 + k) x = .ok (v / (p (2 + k)).value * hat b x k) := by
  have hn : 0 < b.length := List.length_pos_iff.mpr hb
  have hl : b.length - 1 < b.length := by omega
  have hhigh : k = b.length - 1 → val b (b.length - 1) < x → hat b x k = 1 := by
    intro e hlt
    have hu : upperBound b x = b.length := upperBound_eq h le_rfl
      (fun i hi => (mono h (by omega) hl).trans hlt.le) (fun hc => absurd hc (lt_irrefl _))
    rw [hat_high hb hu, if_pos e]
  simp only [PWPL.deriv, if_neg (show ¬ b.length + 1 < 2 + k by omega), if_neg (show ¬ 2 + k < 2 by omega),
    Nat.add_sub_cancel_left]
  cases dec with
  | false =>
    have k0 := hk0 rfl
    have h2 := h2 rfl
    have hns : v / ((p 2).value * (p (2 + k)).value) * (p 2).value = v / (p (2 + k)).value := by
      by_cases hz : (p (2 + k)).value = 0
      · simp [hz]
      · field_simp
    simp only [PWPL.derivCoupled, hv, PWPL.normScaled, if_neg (show ¬ b.length ≤ k by omega), if_neg (show ¬ b.length ≤ 0 by omega),
      Bool.false_eq_true, ↓reduceIte, if_neg (show ¬ k = 0 by omega), Res.bind_ok, vget_val hl, hns]
    by_cases hc : k = b.length - 1 ∧ val b (b.length - 1) < x
    · rw [if_pos hc, hhigh hc.1 hc.2, mul_one]
    · rw [if_neg hc]
      exact last_eq h hb hk k0 _ hc
  | true =>
    simp only [PWPL.derivDecoupled, hv, PWPL.normScaled, if_neg (show ¬ b.length ≤ k by omega), ↓reduceIte, Res.bind_ok,
      vget_val hn, vget_val hl]
    by_cases hc : (k = 0 ∧ x < val b 0) ∨ (k = b.length - 1 ∧ val b (b.length - 1) < x)
    · rw [if_pos hc]
      rcases hc with ⟨k0, hlt⟩ | ⟨e, hlt⟩
      · have hu : upperBound b x = 0 := upperBound_eq h (Nat.zero_le _) (by omega) (fun _ => hlt)
        rw [hat_low hu, if_pos k0, mul_one]
      · rw [hhigh e hlt, mul_one]
    · rw [if_neg hc]
      by_cases k0 : k = 0
      · subst k0
        have hlen : 1 < b.length := by have := h1 rfl rfl; omega
        rw [if_pos rfl, vget_val hlen, Res.bind_ok]
        have hge : val b 0 ≤ x := by
          by_contra hcon; exact hc (.inl ⟨rfl, not_le.mp hcon⟩)
        have hr := log_ratio_pos h (j := 0) hlen
        rw [zero_add] at hr
        by_cases hx1 : x ≤ val b 1
        · rw [if_pos hx1]
          rcases lt_or_eq_of_le hx1 with hlt | rfl
          · have hu : upperBound b x = 0 + 1 :=
              upperBound_eq h (by omega) (fun i hi => by obtain rfl : i = 0 := by omega
                                                         exact hge) (fun _ => hlt)
            rw [hat_mid hu (by omega), if_pos rfl, zero_add]
          · rw [div_self hr.ne', sub_self, mul_zero]
            have hu : upperBound b (val b 1) = 2 :=
              upperBound_eq h (by omega) (fun i hi => mono h (by omega) hlen) (fun hl => mono_lt h (by omega) hl)
            by_cases e2 : b.length = 2
            · rw [hat_high hb (by rw [hu, e2]), if_neg (by omega), mul_zero]
            · rw [hat_mid (j := 1) hu (by omega), if_neg (by omega), if_neg (by omega), mul_zero]
        · rw [if_neg hx1]
          refine inner_eq h hb hk _ (fun hcon => by omega) (fun hcon => ?_)
          have := upperBound_above h hcon.2.le hn
          linarith
      · rw [if_neg k0]
        exact last_eq h hb hk (by omega) _ (fun hcon => hc (.inr hcon))

end Verif.Pieces
