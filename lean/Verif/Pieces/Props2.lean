import Verif.Pieces.Props
set_option linter.unusedSimpArgs false
set_option linter.unusedVariables false
/-
C30: the piecewise power law.
-/
namespace Verif.Pieces
open Verif.Spectra Verif.Vec

variable {b : List ℝ} {x : ℝ} {dec : Bool}

/-- What is accepted. -/
theorem C30_accepted (d es : List ℝ) :
    (PWPL.addParams d es = .ok es ↔ d.length = es.length ∧ es.Pairwise (· < ·)) ∧
    (¬ (d.length = es.length ∧ es.Pairwise (· < ·)) → PWPL.addParams d es = .throws) := by
  unfold PWPL.addParams
  by_cases hl : d.length = es.length
  · simp only [hl, ne_eq, not_true_eq_false, ↓reduceIte, true_and]
    rcases check_cases es with h | h
    · simp [h, check_ok.mp h]
    · have : ¬ es.Pairwise (· < ·) := fun hp => by rw [check_ok.mpr hp] at h; cases h
      simp [h, this]
  · simp [hl]

example : PWPL.addParams [1, 2] [10, 100] = .ok [10, 100] :=
  (C30_accepted _ _).1.mpr ⟨rfl, by norm_num⟩

/-- No energy at all is accepted, and then the value reads outside a vector. -/
theorem C30_no_node_violates (dec : Bool) (x : ℝ) (p : Pars) :
    PWPL.addParams [] [] = .ok [] ∧ PWPL.value dec [] p x = .ub :=
  ⟨(C30_accepted _ _).1.mpr ⟨rfl, by simp⟩, rfl⟩

/-- Common factor of the nodes. -/
def amp (dec : Bool) (p : Pars) : ℝ := if dec then 1 else (p 2).tv

/-- Relative value of a node. -/
def rel (dec : Bool) (p : Pars) (k : Nat) : ℝ := if k = 0 ∧ dec = false then 1 else (p (2 + k)).tv

theorem flux_eq (p : Pars) (k : Nat) : flux dec p k = amp dec p * rel dec p k := by
  cases dec
  · by_cases hk : k = 0 <;> simp [flux, amp, rel, hk, mul_comm]
  · simp [flux, amp, rel]

theorem pnorm {n k : Nat} (hk : k < n) (p : Pars) : PWPL.norm dec n p k = .ok (amp dec p * rel dec p k) := by
  unfold PWPL.norm
  rw [if_neg (by omega)]
  cases dec
  · by_cases hk : k = 0 <;> simp [amp, rel, hk]
  · simp [amp, rel]

theorem pindex {k : Nat} (hk : k + 1 < b.length) (p : Pars) :
    PWPL.plIndex dec b p k = .ok (Real.log (rel dec p (k + 1) / rel dec p k) / Real.log (val b (k + 1) / val b k)) := by
  unfold PWPL.plIndex
  rw [if_neg (by omega)]
  simp only [vget_val hk, vget_val (show k < b.length by omega), Res.bind_ok]
  have e1 : rel dec p (k + 1) = (p (k + 3)).tv := by
    simp only [rel, if_neg (show ¬ (k + 1 = 0 ∧ dec = false) by omega)]; congr 2; omega
  have e2 : rel dec p k = if k = 0 ∧ dec = false then 1 else (p (k + 2)).tv := by
    simp only [rel, Nat.add_comm]
  rw [e1, e2]

/-- The value in each range found by `upper_bound`. -/
theorem pw_low (h : Increasing b) (hb : b ≠ []) (p : Pars) (hu : upperBound b x = 0) :
    PWPL.value dec b p x = .ok (amp dec p * rel dec p 0 * (x / val b 0) ^ (p 0).tv) := by
  have hn : 0 < b.length := List.length_pos_iff.mpr hb
  simp only [PWPL.value, vget_val hn, Res.bind_ok,
    if_pos (upperBound_above h hu.le hn).le, pnorm hn]

theorem pw_high (h : Increasing b) (hb : b ≠ []) (p : Pars) (hu : upperBound b x = b.length) :
    PWPL.value dec b p x = .ok (amp dec p * rel dec p (b.length - 1) * (x / val b (b.length - 1)) ^ (p 1).tv) := by
  have hn : 0 < b.length := List.length_pos_iff.mpr hb
  have hback : val b (b.length - 1) ≤ x := upperBound_below (by omega)
  simp only [PWPL.value, vget_val hn, Res.bind_ok]
  by_cases hx : x ≤ val b 0
  · have e : b.length - 1 = 0 := by
      by_contra hc
      have := mono_lt h (show 0 < b.length - 1 by omega) (by omega)
      linarith
    rw [e] at hback ⊢
    obtain rfl : x = val b 0 := le_antisymm hx hback
    rw [if_pos le_rfl, pnorm hn, Res.bind_ok, div_self (bpos h hn).ne', Real.one_rpow, Real.one_rpow]
  · rw [if_neg hx, vget_val (show b.length - 1 < b.length by omega), Res.bind_ok, if_pos hback,
      pnorm (show b.length - 1 < b.length by omega), Res.bind_ok]

theorem pw_mid (h : Increasing b) (p : Pars) {j : Nat} (hu : upperBound b x = j + 1) (hj : j + 1 < b.length) :
    PWPL.value dec b p x = .ok (amp dec p * rel dec p j * (x / val b j) ^
      (Real.log (rel dec p (j + 1) / rel dec p j) / Real.log (val b (j + 1) / val b j))) := by
  have hn : 0 < b.length := by omega
  have h1 : val b j ≤ x := upperBound_below (by omega)
  have h2 : x < val b (j + 1) := upperBound_above h hu.le hj
  simp only [PWPL.value, vget_val hn, Res.bind_ok]
  by_cases hx : x ≤ val b 0
  · have e : j = 0 := by
      by_contra hc
      have := mono_lt h (show 0 < j by omega) (by omega)
      linarith
    subst e
    obtain rfl : x = val b 0 := le_antisymm hx h1
    rw [if_pos le_rfl, pnorm hn, Res.bind_ok, div_self (bpos h hn).ne', Real.one_rpow, Real.one_rpow]
  · have h3 : ¬ val b (b.length - 1) ≤ x := by
      have := mono h (show j + 1 ≤ b.length - 1 by omega) (by omega)
      intro hc; linarith
    rw [if_neg hx, vget_val (show b.length - 1 < b.length by omega), Res.bind_ok, if_neg h3, hu, Nat.add_sub_cancel,
      pnorm (show j < b.length by omega), Res.bind_ok, vget_val (show j < b.length by omega), Res.bind_ok, pindex hj,
      Res.bind_ok]

theorem cases_upper (b : List ℝ) (x : ℝ) (hb : b ≠ []) :
    upperBound b x = 0 ∨ upperBound b x = b.length ∨ ∃ j, upperBound b x = j + 1 ∧ j + 1 < b.length := by
  have := upperBound_le b x
  by_cases h0 : upperBound b x = 0
  · exact .inl h0
  · by_cases h1 : upperBound b x = b.length
    · exact .inr (.inl h1)
    · exact .inr (.inr ⟨upperBound b x - 1, by omega, by omega⟩)

theorem pw_exists (h : Increasing b) (hb : b ≠ []) (dec : Bool) (p : Pars) (x : ℝ) : ∃ v, PWPL.value dec b p x = .ok v := by
  rcases cases_upper b x hb with hu | hu | ⟨j, hu, hj⟩
  · exact ⟨_, pw_low h hb p hu⟩
  · exact ⟨_, pw_high h hb p hu⟩
  · exact ⟨_, pw_mid h p hu hj⟩

theorem pw_node (h : Increasing b) (hb : b ≠ []) (p : Pars) {k : Nat} (hk : k < b.length) :
    PWPL.value dec b p (val b k) = .ok (flux dec p k) := by
  have hp := bpos h hk
  have hu : upperBound b (val b k) = k + 1 :=
    upperBound_eq h hk (fun i hi => mono h (by omega) hk) (fun hl => mono_lt h (by omega) hl)
  rw [flux_eq]
  by_cases hl : k + 1 < b.length
  · rw [pw_mid h p hu hl, div_self hp.ne', Real.one_rpow, mul_one]
  · have e : b.length = k + 1 := by omega
    rw [pw_high h hb p (by rw [hu, e])]
    rw [e, Nat.add_sub_cancel, div_self hp.ne', Real.one_rpow, mul_one]

/-- Index between two nodes. -/
noncomputable def slope (dec : Bool) (b : List ℝ) (p : Pars) (j : Nat) : ℝ :=
  Real.log (rel dec p (j + 1) / rel dec p j) / Real.log (val b (j + 1) / val b j)

theorem log_ratio_pos (h : Increasing b) {j : Nat} (hj : j + 1 < b.length) : 0 < Real.log (val b (j + 1) / val b j) :=
  Real.log_pos ((one_lt_div (bpos h (by omega))).mpr (mono_lt h (by omega) hj))

/-- The spectrum exists, takes the node values at the node energies, is a power law below the
first, between neighbouring and above the last node, with the two given indices outside, and is
continuous. -/
theorem C30_pieces (h : Increasing b) (hb : b ≠ []) (dec : Bool) (p : Pars)
    (hpos : ∀ k < b.length, 0 < flux dec p k) :
    ∃ (f : ℝ → ℝ) (g : Nat → ℝ), (∀ x, 0 < x → PWPL.value dec b p x = .ok (f x)) ∧
      (∀ (k : Nat) e, b[k]? = some e → f e = flux dec p k) ∧
      PowerPieces b g f ∧ g 0 = (p 0).tv ∧ g b.length = (p 1).tv ∧ ∀ x, 0 < x → ContinuousAt f x := by
  have hn : 0 < b.length := List.length_pos_iff.mpr hb
  choose f hf using fun x => pw_exists (x := x) h hb dec p
  have hA : amp dec p ≠ 0 ∧ ∀ k < b.length, rel dec p k ≠ 0 := by
    constructor
    · intro e; have := hpos 0 hn; rw [flux_eq, e, zero_mul] at this; exact lt_irrefl _ this
    · intro k hk e; have := hpos k hk; rw [flux_eq, e, mul_zero] at this; exact lt_irrefl _ this
  have hratio : ∀ j, j + 1 < b.length → 0 < rel dec p (j + 1) / rel dec p j := by
    intro j hj
    have h1 := hpos (j + 1) hj
    have h2 := hpos j (by omega)
    rw [flux_eq] at h1 h2
    have := div_pos h1 h2
    rwa [mul_div_mul_left _ _ hA.1] at this
  let g : Nat → ℝ := fun j => if j = 0 then (p 0).tv else if j = b.length then (p 1).tv else slope dec b p (j - 1)
  have hnode : ∀ (k : Nat) e, b[k]? = some e → f e = flux dec p k := by
    intro k e he
    obtain ⟨rfl, hk⟩ := val_some he
    have := hf (val b k)
    rw [pw_node h hb p hk] at this
    exact (Res.ok.inj this).symm
  have hpp : PowerPieces b g f := by
    constructor
    · intro e he
      have he' : b[0]? = some e := by rw [← List.head?_eq_getElem?]; exact he
      have hfe := hnode 0 e he'
      obtain ⟨hv, -⟩ := val_some he'
      refine ⟨flux dec p 0 / e ^ (p 0).tv, fun x hx h0 => ?_⟩
      have hep : 0 < e := hv ▸ bpos h hn
      have hne := (Real.rpow_pos_of_pos hep (p 0).tv).ne'
      simp only [g, if_pos]
      rcases lt_or_eq_of_le (show x ≤ e from hx) with hlt | rfl
      · have hu : upperBound b x = 0 := upperBound_eq h (Nat.zero_le _) (by omega) (fun _ => hv ▸ hlt)
        have := hf x
        rw [pw_low h hb p hu, ← flux_eq, hv, Real.div_rpow h0.le hep.le] at this
        rw [← Res.ok.inj this]; ring
      · rw [hfe]; field_simp
    · intro j a c ha hc
      obtain ⟨hav, hal⟩ := val_some ha
      obtain ⟨hcv, hcl⟩ := val_some hc
      have hap : 0 < a := hav ▸ bpos h hal
      have hcp : 0 < c := hcv ▸ bpos h hcl
      refine ⟨flux dec p j / a ^ slope dec b p j, fun x hx h0 => ?_⟩
      have hg : g (j + 1) = slope dec b p j := by
        simp only [g, if_neg (show ¬ j + 1 = 0 by omega), if_neg (show ¬ j + 1 = b.length by omega), Nat.add_sub_cancel]
      rw [hg]
      have hne := (Real.rpow_pos_of_pos hap (slope dec b p j)).ne'
      rcases lt_or_eq_of_le hx.2 with hlt | rfl
      · have hu : upperBound b x = j + 1 :=
          upperBound_eq h hcl.le (fun i hi => (mono h (by omega) hal).trans (hav.le.trans hx.1)) (fun _ => hcv ▸ hlt)
        have := hf x
        rw [pw_mid h p hu hcl, ← flux_eq, hav, Real.div_rpow h0.le hap.le, hcv] at this
        rw [← Res.ok.inj this, slope, hav, hcv]; ring
      · rw [hnode _ _ hc, div_mul_eq_mul_div, mul_div_assoc, ← Real.div_rpow h0.le hap.le, flux_eq, flux_eq, slope, hav, hcv,
          Real.rpow_def_of_pos (div_pos h0 hap), mul_div_cancel₀ _ (by
            have := (log_ratio_pos h hcl).ne'; rwa [hav, hcv] at this), Real.exp_log (hratio j hcl)]
        have := hA.2 j hal
        field_simp
    · intro e he
      have he' : b[b.length - 1]? = some e := by rw [← List.getLast?_eq_getElem?]; exact he
      obtain ⟨hv, hl⟩ := val_some he'
      have hep : 0 < e := hv ▸ bpos h hl
      refine ⟨flux dec p (b.length - 1) / e ^ (p 1).tv, fun x hx h0 => ?_⟩
      have hu : upperBound b x = b.length :=
        upperBound_eq h le_rfl (fun i hi => (mono h (by omega) hl).trans (hv.le.trans hx)) (fun hc => absurd hc (lt_irrefl _))
      have := hf x
      rw [pw_high h hb p hu, ← flux_eq, hv, Real.div_rpow h0.le hep.le] at this
      have hg : g b.length = (p 1).tv := by simp only [g, if_neg hn.ne', if_pos]
      rw [← Res.ok.inj this, hg]; ring
  exact ⟨f, g, fun x _ => hf x, hnode, hpp, by simp [g], by simp only [g, if_neg hn.ne', if_pos],
    fun x hx => pieces_continuousAt h hb hpp hx⟩

example : ∃ f : ℝ → ℝ, (∀ x, 0 < x → PWPL.value false [10, 100, 1000] (fun i => ⟨[-1, -2, 5, 3, 4].getD i 0, 1⟩) x = .ok (f x)) ∧
    f 100 = 15 ∧ ContinuousAt f 100 := by
  obtain ⟨f, g, h1, h2, -, -, -, h3⟩ := C30_pieces exInc (by simp) false (fun i => ⟨[-1, -2, 5, 3, 4].getD i 0, 1⟩) (by
    intro k hk
    have : k = 0 ∨ k = 1 ∨ k = 2 := by simp at hk; omega
    rcases this with rfl | rfl | rfl <;> norm_num [flux, P.tv])
  refine ⟨f, h1, ?_, h3 100 (by norm_num)⟩
  rw [h2 1 100 rfl]; norm_num [flux, P.tv]

end Verif.Pieces
