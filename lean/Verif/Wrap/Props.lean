import Verif.Wrap.Model
import Verif.Spectra.Props
import Verif.Pieces.Props4
import Verif.Priors.Props
set_option linter.unusedSimpArgs false
set_option linter.unusedVariables false
set_option linter.unnecessarySeqFocus false
/-
C54: wrapping a spectrum keeps its derivatives right.
C55: the complement form of the scale factor.
-/
namespace Verif.Wrap
open Verif.Spectra Verif.Pieces Verif.Priors

theorem value_setv {f : Fn} (hl : Local f) (p : Pars) {i : Nat} (hi : f.n ≤ i) (t x : ℝ) :
    f.value (setv p i t) x = f.value p x :=
  hl _ _ _ fun j hj => setv_ne p t (by omega)

/-- The scale factor, in either form: values depend on nothing else, derivatives stay right,
and the derivative by the factor itself is always reported. -/
theorem C54_scaleFactor {f : Fn} (hl : Local f) (c : Bool) :
    Local (scaleFactor f c) ∧ ∀ p x, Sound f p x → Sound (scaleFactor f c) p x ∧
      ∃ d, (scaleFactor f c).deriv p f.n x = .ok d := by
  refine ⟨?_, fun p x hs => ⟨?_, ?_⟩⟩
  · intro p q x h
    have h1 := hl p q x fun i hi => h i (Nat.lt_succ_of_lt hi)
    simp only [scaleFactor, prefactor]
    rw [h1, h f.n (Nat.lt_succ_self _)]
  · intro i hi d hd
    simp only [scaleFactor] at hi hd
    rw [if_neg (show ¬ f.n + 1 ≤ i by omega)] at hd
    by_cases h : i < f.n
    · rw [if_pos h] at hd
      obtain ⟨e, he, hd⟩ := Res.bind_eq_ok.mp hd
      cases hd
      have hp : ∀ t, prefactor f c (setv p i t) = prefactor f c p := by
        intro t
        unfold prefactor
        rw [setv_ne p t (show f.n ≠ i by omega)]
      unfold Partial
      simp only [scaleFactor, hp]
      exact HasDerivAt.const_mul _ (hs i h e he)
    · have hin : i = f.n := by omega
      subst hin
      rw [if_neg h] at hd
      cases c
      · cases hd
        refine partial_of (g := fun a => a * f.value p x) (fun t => ?_) ((idd _).mul_const _) (by ring)
        simp only [scaleFactor, prefactor, value_setv hl p le_rfl, setv_eq]
        rfl
      · cases hd
        refine partial_of (g := fun a => (1 - a) * f.value p x) (fun t => ?_) (((idd _).const_sub 1).mul_const _) (by ring)
        simp only [scaleFactor, prefactor, value_setv hl p le_rfl, setv_eq]
        rfl
  · simp only [scaleFactor]
    rw [if_neg (show ¬ f.n + 1 ≤ f.n by omega), if_neg (lt_irrefl _)]
    cases c <;> simp

/-- The energy band: derivatives stay right, also outside the band, and the value is that
of the spectrum inside and zero outside. -/
theorem C54_energyBand {f : Fn} (hl : Local f) :
    Local (energyBand f) ∧ ∀ p x, Sound f p x → Sound (energyBand f) p x ∧
      ((p f.n).tv ≤ x ∧ x < (p (f.n + 1)).tv → (energyBand f).value p x = f.value p x) ∧
      (¬ ((p f.n).tv ≤ x ∧ x < (p (f.n + 1)).tv) → (energyBand f).value p x = 0) ∧
      ∀ i < f.n, (∃ d, f.deriv p i x = .ok d) → ∃ d, (energyBand f).deriv p i x = .ok d := by
  refine ⟨?_, fun p x hs => ⟨?_, ?_, ?_, ?_⟩⟩
  · intro p q x h
    simp only [energyBand] at h ⊢
    rw [hl p q x fun i hi => h i (by omega), h f.n (by omega), h (f.n + 1) (by omega)]
  · intro i hi d hd
    simp only [energyBand] at hi hd
    by_cases h : f.n ≤ i
    · rw [if_pos h] at hd; cases hd
    · rw [if_neg h] at hd
      have e1 : ∀ t, setv p i t f.n = p f.n := fun t => setv_ne p t (by omega)
      have e2 : ∀ t, setv p i t (f.n + 1) = p (f.n + 1) := fun t => setv_ne p t (by omega)
      by_cases hb : (p f.n).tv ≤ x ∧ x < (p (f.n + 1)).tv
      · rw [if_pos hb] at hd
        unfold Partial
        simp only [energyBand, e1, e2]
        have : ¬ (x < (p f.n).tv ∨ (p (f.n + 1)).tv ≤ x) := by
          rintro (hh | hh)
          · exact absurd hb.1 (not_le.mpr hh)
          · exact absurd hb.2 (not_lt.mpr hh)
        simp only [if_neg this]
        exact hs i (by omega) d hd
      · rw [if_neg hb] at hd
        cases hd
        refine partial_zero fun t => ?_
        simp only [energyBand, e1, e2]
        have : x < (p f.n).tv ∨ (p (f.n + 1)).tv ≤ x := by
          by_contra hh
          push Not at hh
          exact hb hh
        simp only [if_pos this]
  · intro hb
    simp only [energyBand]
    rw [if_neg]
    rintro (hh | hh)
    · exact absurd hb.1 (not_le.mpr hh)
    · exact absurd hb.2 (not_lt.mpr hh)
  · intro hb
    simp only [energyBand]
    rw [if_pos]
    by_contra hh
    push Not at hh
    exact hb hh
  · intro i hi ⟨d, hd⟩
    simp only [energyBand]
    rw [if_neg (show ¬ f.n ≤ i by omega)]
    split
    · exact ⟨d, hd⟩
    · exact ⟨0, rfl⟩

/-! ### Attenuation -/

theorem attenuation_eq (tau : Tau) (f : Fn) (held : ℤ) (p : Pars) (x : ℝ) : attenuation tau f held p x =
    (Real.exp (-(p f.n).tv * tau (modelOf f p) x (p (f.n + 1)).tv), modelOf f p) := by
  unfold attenuation
  by_cases h : modelOf f p = held
  · simp [h]
  · simp [h]

theorem modelOf_setv (f : Fn) (p : Pars) {i : Nat} (hi : i ≠ f.n + 2) (t : ℝ) : modelOf f (setv p i t) = modelOf f p := by
  unfold modelOf
  rw [setv_ne p t (Ne.symm hi)]

/-- The value does not depend on which model the object held before. -/
theorem C54_ebl_history (tau : Tau) (f : Fn) (held held' : ℤ) (p : Pars) (x : ℝ) :
    eblValue tau f held p x = eblValue tau f held' p x ∧
    (eblValue tau f held p x).1 = f.value p x * Real.exp (-((p f.n).tv * tau (modelOf f p) x (p (f.n + 1)).tv)) := by
  simp only [eblValue, attenuation_eq, neg_mul, and_self]

/-- The attenuation is that of the model whose number the last parameter has, without the
fraction, whatever model the object held before; the object then holds that model. -/
theorem C54_ebl_model (tau : Tau) (f : Fn) (held m : ℤ) (p : Pars) (x : ℝ)
    (hm : (0 ≤ (p (f.n + 2)).tv ∧ (m : ℝ) ≤ (p (f.n + 2)).tv ∧ (p (f.n + 2)).tv < m + 1) ∨
      ((p (f.n + 2)).tv < 0 ∧ (m : ℝ) - 1 < (p (f.n + 2)).tv ∧ (p (f.n + 2)).tv ≤ m)) :
    attenuation tau f held p x = (Real.exp (-((p f.n).tv * tau m x (p (f.n + 1)).tv)), m) := by
  have : modelOf f p = m := by
    unfold modelOf
    rcases hm with ⟨h0, h1, h2⟩ | ⟨h0, h1, h2⟩
    · rw [if_pos h0]; exact Int.floor_eq_iff.2 ⟨h1, h2⟩
    · rw [if_neg (not_le.2 h0)]; exact Int.ceil_eq_iff.2 ⟨h1, h2⟩
  rw [attenuation_eq, this, neg_mul]

example : attenuation (fun m _ _ => m) ⟨0, fun _ _ => 1, fun _ _ _ => .throws⟩ 7
    (fun i => ⟨if i = 2 then 3.7 else 1, 1⟩) 1 = (Real.exp (-(1 * 3)), 3) := by
  rw [C54_ebl_model _ _ 7 3 _ _ (Or.inl ?_)]
  · simp [Spectra.P.tv]
  · simp [Spectra.P.tv]; norm_num

theorem eblAtten_value (tau : Tau) (f : Fn) (p : Pars) (x : ℝ) : (eblAtten tau f).value p x =
    f.value p x * Real.exp (-((p f.n).tv * tau (modelOf f p) x (p (f.n + 1)).tv)) :=
  (C54_ebl_history tau f _ 0 p x).2

theorem eblAtten_local {f : Fn} (hl : Local f) (tau : Tau) : Local (eblAtten tau f) := by
  intro p q x h
  have hn : (eblAtten tau f).n = f.n + 3 := rfl
  rw [eblAtten_value, eblAtten_value, hl p q x fun i hi => h i (by omega), h f.n (by omega), h (f.n + 1) (by omega)]
  unfold modelOf
  rw [h (f.n + 2) (by omega)]

theorem ebl_partial (tau : Tau) {f : Fn} (hl : Local f) (p : Pars) (x : ℝ) :
    Partial (fun q => (eblAtten tau f).value q x) p f.n
      (-(eblAtten tau f).value p x * tau (modelOf f p) x (p (f.n + 1)).tv * (p f.n).scale) := by
  refine partial_of (g := fun a => f.value p x * Real.exp (-(a * tau (modelOf f p) x (p (f.n + 1)).tv))) (fun t => ?_)
    ((ex (((idd _).mul_const _).fun_neg)).const_mul _) ?_
  · simp only [eblAtten_value]
    rw [value_setv hl p le_rfl, setv_eq, modelOf_setv f p (show f.n ≠ f.n + 2 by omega), setv_ne p t (by omega)]
  · rw [eblAtten_value]
    ring

/-- The attenuated spectrum, with the scale of tau_norm left at one and the current model
held, whatever the order of evaluation. -/
theorem C54_ebl_partial (tau : Tau) {f : Fn} (hl : Local f) {p : Pars} (x : ℝ) (hs : Sound f p x)
    (h1 : (p f.n).scale = 1) (o : Order) {i : Nat} (hi : i < f.n + 3) {d : ℝ}
    (hd : eblDeriv tau f (modelOf f p) o p i x = .ok d) : Partial (fun q => (eblAtten tau f).value q x) p i d := by
  unfold eblDeriv at hd
  rw [if_neg (show ¬ f.n + 3 ≤ i by omega)] at hd
  by_cases h : i < f.n
  · rw [if_pos h] at hd
    obtain ⟨e, he, hd⟩ := Res.bind_eq_ok.mp hd
    cases hd
    unfold Partial
    simp only [eblAtten_value]
    have e1 : ∀ t, setv p i t f.n = p f.n := fun t => setv_ne p t (by omega)
    have e2 : ∀ t, setv p i t (f.n + 1) = p (f.n + 1) := fun t => setv_ne p t (by omega)
    simp only [e1, e2, modelOf_setv f p (show i ≠ f.n + 2 by omega), attenuation_eq]
    refine (HasDerivAt.mul_const (hs i h e he) _).congr_deriv ?_
    rw [neg_mul]; ring
  · rw [if_neg h] at hd
    by_cases h2 : i = f.n
    · subst h2
      rw [if_neg (not_not.mpr rfl)] at hd
      have hv : eblValue tau f (modelOf f p) p x = ((eblAtten tau f).value p x, modelOf f p) := by
        simp only [eblAtten, eblValue, attenuation_eq]
      have : d = -(eblAtten tau f).value p x * tau (modelOf f p) x (p (f.n + 1)).tv := by
        cases o <;> simp only [hv, ne_eq, not_true, if_false] at hd <;> cases hd <;> rfl
      rw [this]
      have h3 := ebl_partial tau hl p x
      rwa [h1, mul_one] at h3
    · rw [if_pos h2] at hd; cases hd

/-- With another scale the derivative by tau_norm is wrong wherever there is any attenuated
flux: the factor scale is missing. -/
theorem C54_ebl_violates (tau : Tau) {f : Fn} (hl : Local f) {p : Pars} {x : ℝ} (h1 : (p f.n).scale ≠ 1)
    (hv : f.value p x ≠ 0) (ht : tau (modelOf f p) x (p (f.n + 1)).tv ≠ 0) :
    ∃ d, (eblAtten tau f).deriv p f.n x = .ok d ∧ ¬ Partial (fun q => (eblAtten tau f).value q x) p f.n d := by
  refine ⟨-(eblAtten tau f).value p x * tau (modelOf f p) x (p (f.n + 1)).tv, ?_, ?_⟩
  · show eblDeriv tau f (modelOf f p) .left p f.n x = _
    unfold eblDeriv
    rw [if_neg (show ¬ f.n + 3 ≤ f.n by omega), if_neg (lt_irrefl _), if_neg (not_not.mpr rfl)]
    simp only [eblAtten, eblValue, attenuation_eq]
  · refine not_partial (ebl_partial tau hl p x) ?_
    intro h
    have hne : -(eblAtten tau f).value p x * tau (modelOf f p) x (p (f.n + 1)).tv ≠ 0 := by
      refine mul_ne_zero (neg_ne_zero.mpr ?_) ht
      rw [eblAtten_value]
      exact mul_ne_zero hv (Real.exp_pos _).ne'
    apply h1
    have h2 : -(eblAtten tau f).value p x * tau (modelOf f p) x (p (f.n + 1)).tv * (p f.n).scale =
      -(eblAtten tau f).value p x * tau (modelOf f p) x (p (f.n + 1)).tv * 1 := by rw [← h, mul_one]
    exact mul_left_cancel₀ hne h2

/-- After a change of the model the derivative depends on the order in which the compiler
evaluates a product: the depth of the old model, or a use of a deleted object. -/
theorem C54_ebl_order_violates (tau : Tau) (f : Fn) {p : Pars} {x : ℝ} {held : ℤ} (hm : held ≠ modelOf f p)
    (hv : f.value p x ≠ 0) (ht : tau held x (p (f.n + 1)).tv ≠ tau (modelOf f p) x (p (f.n + 1)).tv) :
    eblDeriv tau f held .pointer p f.n x = .ub ∧
    ∃ d d', eblDeriv tau f held .left p f.n x = .ok d ∧ eblDeriv tau f held .right p f.n x = .ok d' ∧ d ≠ d' := by
  have hg : ∀ o, eblDeriv tau f held o p f.n x = match o with
      | .left => .ok (-(eblValue tau f held p x).1 * tau (eblValue tau f held p x).2 x (p (f.n + 1)).tv)
      | .right => .ok (-(eblValue tau f held p x).1 * tau held x (p (f.n + 1)).tv)
      | .pointer => if (eblValue tau f held p x).2 ≠ held then .ub
        else .ok (-(eblValue tau f held p x).1 * tau held x (p (f.n + 1)).tv) := by
    intro o
    unfold eblDeriv
    rw [if_neg (show ¬ f.n + 3 ≤ f.n by omega), if_neg (lt_irrefl _), if_neg (not_not.mpr rfl)]
    cases o <;> rfl
  have h2 : (eblValue tau f held p x).2 = modelOf f p := by simp only [eblValue, attenuation_eq]
  have h1 : (eblValue tau f held p x).1 ≠ 0 := by
    simp only [eblValue, attenuation_eq]
    exact mul_ne_zero hv (Real.exp_pos _).ne'
  refine ⟨?_, _, _, hg _, hg _, ?_⟩
  · rw [hg]
    simp only [h2]
    rw [if_pos hm.symm]
  · intro h
    rw [h2] at h
    exact ht (mul_left_cancel₀ (neg_ne_zero.mpr h1) h).symm

/-! ### Nests of wrappers -/

/-- Nests of scale factors and energy bands around a spectrum, to any depth. -/
inductive Nest (f : Fn) : Fn → Prop
  | base : Nest f f
  | scale {g : Fn} (c : Bool) : Nest f g → Nest f (scaleFactor g c)
  | band {g : Fn} : Nest f g → Nest f (energyBand g)

/-- Derivatives stay right at any depth. -/
theorem C54_nest {f g : Fn} (h : Nest f g) (hl : Local f) {p : Pars} {x : ℝ} (hs : Sound f p x) :
    Local g ∧ Sound g p x := by
  induction h with
  | base => exact ⟨hl, hs⟩
  | scale c _ ih => exact ⟨(C54_scaleFactor ih.1 c).1, ((C54_scaleFactor ih.1 c).2 p x ih.2).1⟩
  | band _ ih => exact ⟨(C54_energyBand ih.1).1, ((C54_energyBand ih.1).2 p x ih.2).1⟩

/-- A log parabola, for the examples. -/
noncomputable def lp : Fn := ⟨4, LogParabola.value, LogParabola.deriv⟩

theorem lp_local : Local lp := by
  intro p q x h
  have hn : lp.n = 4 := rfl
  simp only [lp, LogParabola.value]
  rw [h 0 (by omega), h 1 (by omega), h 2 (by omega), h 3 (by omega)]

noncomputable def lpPars : Pars := fun i => ⟨[3, 2, 1, 100, 1 / 2, 1, 4].getD i 0, 2⟩

theorem lp_sound : Sound lp lpPars 300 := by
  intro i hi d hd
  have hn : lp.n = 4 := rfl
  obtain ⟨e, he, h⟩ := C50_logParabola (p := lpPars) (x := 300) (by norm_num) (by norm_num [P.tv, lpPars]) (i := i) (by omega)
  have hd' : LogParabola.deriv lpPars i 300 = .ok d := hd
  rw [he] at hd'
  cases hd'
  exact h

example : Local (energyBand (scaleFactor (scaleFactor lp true) false)) ∧
    Sound (energyBand (scaleFactor (scaleFactor lp true) false)) lpPars 300 :=
  C54_nest (.band (.scale _ (.scale _ .base))) lp_local lp_sound

example : ∃ d, (eblAtten (fun m x z => m * x * z) lp).deriv lpPars lp.n 300 = .ok d ∧
    ¬ Partial (fun q => (eblAtten (fun m x z => m * x * z) lp).value q 300) lpPars lp.n d := by
  have hm : modelOf lp lpPars = 8 := by
    norm_num [modelOf, lp, lpPars, P.tv]
  refine C54_ebl_violates _ lp_local (by norm_num [lp, lpPars]) ?_ ?_
  · have : (0 : ℝ) < LogParabola.value lpPars 300 := by
      unfold LogParabola.value
      refine mul_pos (by norm_num [lpPars, P.tv]) (Real.rpow_pos_of_pos (by norm_num [lpPars, P.tv]) _)
    exact this.ne'
  · rw [hm]; norm_num [lp, lpPars, P.tv]

example : eblDeriv (fun m x z => m * x * z) lp 0 .pointer lpPars lp.n 300 = .ub := by
  have hm : modelOf lp lpPars = 8 := by
    norm_num [modelOf, lp, lpPars, P.tv]
  refine (C54_ebl_order_violates _ lp (by rw [hm]; norm_num) ?_ ?_).1
  · have : (0 : ℝ) < LogParabola.value lpPars 300 := by
      unfold LogParabola.value
      refine mul_pos (by norm_num [lpPars, P.tv]) (Real.rpow_pos_of_pos (by norm_num [lpPars, P.tv]) _)
    exact this.ne'
  · rw [hm]; norm_num [lp, lpPars, P.tv]

/-! ### Assignment -/

/-- An assigned object keeps its old factor: its values differ from those of the original
wherever the spectrum is not zero and the factors differ. -/
theorem C54_assign_violates (a b : Obj) (x : ℝ) (hf : (a.own b.f.n).tv ≠ (b.own b.f.n).tv)
    (hv : b.f.value b.inner x ≠ 0) : (a.assign b).value x ≠ b.value x := by
  intro h
  have h1 := mul_right_cancel₀ hv h
  simp only [Obj.assign, prefactor] at h1
  apply hf
  cases hc : b.complement
  · simpa [hc] using h1
  · simpa [hc] using h1

example : (Obj.assign ⟨⟨0, fun _ _ => 1, fun _ _ _ => .throws⟩, fun _ => ⟨1, 1⟩, fun _ => ⟨1, 1⟩, false⟩
    ⟨⟨0, fun _ _ => 1, fun _ _ _ => .throws⟩, fun _ => ⟨2, 1⟩, fun _ => ⟨1, 1⟩, false⟩).value 100 ≠
    Obj.value ⟨⟨0, fun _ _ => 1, fun _ _ _ => .throws⟩, fun _ => ⟨2, 1⟩, fun _ => ⟨1, 1⟩, false⟩ 100 :=
  C54_assign_violates _ _ _ (by norm_num [P.tv]) (by norm_num)

/-! ### The complement form -/

/-- With bounds inside (0, 1) an accepted complement form has a factor between zero and one. -/
theorem C55_complement_partial (o : Fac) (h : (setComplementFlag o true).2 = true) (hl : o.par.lo = 0) (hh : o.par.hi = 1)
    (hv : o.par.lo ≤ o.par.value ∧ o.par.value ≤ o.par.hi) :
    Fraction (setComplementFlag o true).1.prefactor ∧ (setComplementFlag o true).1.prefactor = 1 - o.par.value := by
  have hs : o.par.scale = 1 := by
    by_contra hc
    simp [setComplementFlag, checkComplement, hc] at h
  have : (setComplementFlag o true).1.prefactor = 1 - o.par.value := by
    simp [setComplementFlag, Fac.prefactor, hs]
  rw [this]
  rw [hl, hh] at hv
  exact ⟨⟨by linarith [hv.2], by linarith [hv.1]⟩, rfl⟩

/-- Bounds with only one end right are accepted: the factor may be negative or above one. -/
theorem C55_complement_violates (v lo hi : ℝ) (h : lo = 0 ∨ hi = 1) (hv : lo ≤ v ∧ v ≤ hi) (ho : v < 0 ∨ 1 < v)
    (flag : Bool) :
    (setComplementFlag ⟨⟨v, lo, hi, 1⟩, flag⟩ true).2 = true ∧
    ¬ Fraction (setComplementFlag ⟨⟨v, lo, hi, 1⟩, flag⟩ true).1.prefactor := by
  refine ⟨?_, ?_⟩
  · simp only [setComplementFlag, checkComplement]
    rcases h with h | h <;> simp [h]
  · simp only [setComplementFlag, Fac.prefactor, Fraction, if_true, mul_one]
    rintro ⟨h1, h2⟩
    rcases ho with h3 | h3 <;> linarith

example : (setComplementFlag ⟨⟨3, 0, 5, 1⟩, false⟩ true).2 = true ∧
    ¬ Fraction (setComplementFlag ⟨⟨3, 0, 5, 1⟩, false⟩ true).1.prefactor :=
  C55_complement_violates 3 0 5 (by norm_num) (by norm_num) (by norm_num) false

/-- A refused request has taken effect all the same: the object uses the complement. -/
theorem C55_refused_violates (o : Fac) (h : (setComplementFlag o true).2 = false) (hf : o.useComplement = false)
    (hv : o.par.value * o.par.scale ≠ 1 / 2) : (setComplementFlag o true).1.prefactor ≠ o.prefactor := by
  simp only [setComplementFlag, Fac.prefactor, if_true, hf]
  intro hc
  apply hv
  simp at hc
  linarith

example : (setComplementFlag ⟨⟨1, -10, 10, 1⟩, false⟩ true).2 = false ∧
    (⟨⟨1, -10, 10, 1⟩, false⟩ : Fac).prefactor = 1 ∧ (setComplementFlag ⟨⟨1, -10, 10, 1⟩, false⟩ true).1.prefactor = 0 := by
  norm_num [setComplementFlag, checkComplement, Fac.prefactor]

/-- Bounds with neither end right, or another scale, are refused. -/
theorem C55_refuses (o : Fac) (h : o.par.lo ≠ 0 ∧ o.par.hi ≠ 1 ∨ o.par.scale ≠ 1) :
    (setComplementFlag o true).2 = false ∧ (setComplementFlag o false).2 = true := by
  refine ⟨?_, by simp [setComplementFlag, checkComplement]⟩
  rcases h with h | h
  · simp [setComplementFlag, checkComplement, h.1, h.2]
  · simp [setComplementFlag, checkComplement, h]

example : (setComplementFlag ⟨⟨1, 0, 1, 2⟩, false⟩ true).2 = false :=
  (C55_refuses _ (Or.inr (by norm_num))).1

/-! ### Tabulated spectra -/

theorem vget_some {v : List ℝ} {i : Nat} {a : ℝ} (h : vget v i = .ok a) : v[i]? = some a := by
  unfold vget at h
  split at h
  · cases h; assumption
  · cases h

/-- A tabulated spectrum is its normalisation times a function of energy, and the derivative is
right at every energy where both are computed, if the interpolation agrees with the table
at its ends. -/
theorem C54_file_partial {xs ys : List ℝ} {interp : ℝ → Res ℝ} {p : Pars} {x v d : ℝ}
    (ha : ∀ a y z, xs[0]? = some a → ys[0]? = some y → interp a = .ok z → z = y)
    (hb : ∀ a y z, xs[xs.length - 1]? = some a → ys[ys.length - 1]? = some y → interp a = .ok z → z = y)
    (hv : fileValue xs ys interp p x = .ok v) (hd : fileDeriv interp p x = .ok d) :
    ∃ g : Pars → ℝ, (∀ q, fileValue xs ys interp q x = .ok (g q)) ∧ Partial g p 0 d := by
  obtain ⟨y, hy, hd⟩ := Res.bind_eq_ok.mp hd
  obtain ⟨z, hz, hy⟩ := Res.bind_eq_ok.mp hy
  cases hd; cases hy
  refine ⟨fun q => (q 0).tv * Real.exp z, fun q => ?_, ?_⟩
  · unfold fileValue at hv ⊢
    obtain ⟨a, h1, hv⟩ := Res.bind_eq_ok.mp hv
    rw [h1, Res.bind_ok]
    by_cases h2 : x = a
    · rw [if_pos h2] at hv ⊢
      obtain ⟨w, h3, hv⟩ := Res.bind_eq_ok.mp hv
      subst h2
      rw [h3, Res.bind_ok, ha _ _ _ (vget_some h1) (vget_some h3) hz]
    · rw [if_neg h2] at hv ⊢
      obtain ⟨b, h3, hv⟩ := Res.bind_eq_ok.mp hv
      rw [h3, Res.bind_ok]
      by_cases h4 : x = b
      · rw [if_pos h4] at hv ⊢
        obtain ⟨w, h5, hv⟩ := Res.bind_eq_ok.mp hv
        subst h4
        rw [h5, Res.bind_ok, hb _ _ _ (vget_some h3) (vget_some h5) hz]
      · rw [if_neg h4]
        simp only [interpolateFlux, hz, Res.bind_ok]
  · refine partial_of (g := fun a => a * Real.exp z) (fun t => ?_) ((idd _).mul_const _) (by ring)
    simp only [setv_eq]

example : ∃ g : Pars → ℝ, (∀ q, fileValue [1, 3] [2, 4] (fun t => .ok (t + 1)) q 2 = .ok (g q)) ∧
    Partial g (fun _ => ⟨1, 2⟩) 0 (2 * Real.exp 3) := by
  refine C54_file_partial (v := 2 * Real.exp 3) ?_ ?_ ?_ ?_
  · intro a y z h1 h2 h3
    simp at h1 h2 h3
    subst h1 h2 h3; norm_num
  · intro a y z h1 h2 h3
    simp at h1 h2 h3
    subst h1 h2 h3; norm_num
  · norm_num [fileValue, front, back, vget, interpolateFlux, P.tv]
  · norm_num [fileDeriv, interpolateFlux]

/-- At the last energy of the table the value is reported, but not the derivative if the
interpolation covers only energies below (the value has a case of its own for that). -/
theorem C54_file_violates {xs ys : List ℝ} {interp : ℝ → Res ℝ} {p : Pars} {x : ℝ} (hx : xs[xs.length - 1]? = some x)
    (hlen : ys.length = xs.length) (hi : interp x = .throws) :
    (∃ v, fileValue xs ys interp p x = .ok v) ∧ fileDeriv interp p x = .throws := by
  have hpos : 0 < xs.length := by
    by_contra hc
    have : xs = [] := List.length_eq_zero_iff.mp (by omega)
    subst this
    simp at hx
  refine ⟨?_, by simp [fileDeriv, interpolateFlux, hi]⟩
  have h1 : front xs = .ok xs[0] := vget_lt _ _ hpos
  have h2 : front ys = .ok (ys[0]'(by omega)) := vget_lt _ _ (by omega)
  have h3 : back ys = .ok (ys[ys.length - 1]'(by omega)) := vget_lt _ _ (by omega)
  have h4 : back xs = .ok x := by
    unfold back vget
    rw [hx]
  unfold fileValue
  rw [h1, Res.bind_ok]
  by_cases h : x = xs[0]
  · rw [if_pos h, h2]; exact ⟨_, rfl⟩
  · rw [if_neg h, h4, Res.bind_ok, if_pos rfl, h3]; exact ⟨_, rfl⟩

example : (∃ v, fileValue [1, 3] [2, 4] (fun t => if t < 3 then .ok (t + 1) else .throws) (fun _ => ⟨1, 1⟩) 3 = .ok v) ∧
    fileDeriv (fun t => if t < 3 then .ok (t + 1) else .throws) (fun _ => ⟨1, 1⟩) 3 = .throws :=
  C54_file_violates (by simp) (by simp) (by simp)

end Verif.Wrap
