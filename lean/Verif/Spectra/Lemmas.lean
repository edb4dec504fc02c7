import Verif.Spectra.Model
import Mathlib.Analysis.SpecialFunctions.Pow.Deriv
import Mathlib.Analysis.SpecialFunctions.Log.Deriv
import Mathlib.Tactic.FieldSimp
import Mathlib.Tactic.Ring
import Mathlib.Tactic.Positivity
import Mathlib.Tactic.Linarith
set_option linter.unusedSimpArgs false
set_option linter.unusedVariables false
/-
Rules of differentiation, in the form of the code.
-/
namespace Verif.Spectra

/-- The true value as a function of the value. -/
theorem lin (s v : ℝ) : HasDerivAt (fun t => t * s) s v := by
  simpa using (hasDerivAt_id v).mul_const s

/-- Power, with the logarithmic derivative. -/
theorem pw {f g : ℝ → ℝ} {f' g' v : ℝ} (hf : HasDerivAt f f' v) (hg : HasDerivAt g g' v) (h : 0 < f v) :
    HasDerivAt (fun t => f t ^ g t) (f v ^ g v * (g' * Real.log (f v) + g v * (f' / f v))) v := by
  convert hf.rpow hg h using 1
  rw [Real.rpow_sub_one h.ne']
  field_simp
  ring

theorem powc {f : ℝ → ℝ} {f' v : ℝ} (a : ℝ) (hf : HasDerivAt f f' v) (h : 0 < f v) :
    HasDerivAt (fun t => f t ^ a) (f v ^ a * (a * (f' / f v))) v := by
  simpa using pw hf (hasDerivAt_const v a) h

theorem cpow {g : ℝ → ℝ} {g' v : ℝ} {a : ℝ} (ha : 0 < a) (hg : HasDerivAt g g' v) :
    HasDerivAt (fun t => a ^ g t) (a ^ g v * (g' * Real.log a)) v := by
  simpa using pw (hasDerivAt_const v a) hg ha

/-- Quotient of a constant. -/
theorem cdiv {g : ℝ → ℝ} {g' v : ℝ} (a : ℝ) (hg : HasDerivAt g g' v) (h : g v ≠ 0) :
    HasDerivAt (fun t => a / g t) (-(a / g v) * (g' / g v)) v := by
  refine ((hasDerivAt_const v a).fun_div hg h).congr_deriv ?_
  field_simp
  ring

theorem lg {f : ℝ → ℝ} {f' v : ℝ} (hf : HasDerivAt f f' v) (h : 0 < f v) :
    HasDerivAt (fun t => Real.log (f t)) (f' / f v) v := hf.log h.ne'

theorem ex {f : ℝ → ℝ} {f' v : ℝ} (hf : HasDerivAt f f' v) :
    HasDerivAt (fun t => Real.exp (f t)) (Real.exp (f v) * f') v := hf.exp

/-- A term with a branch which does not depend on the variable near the point. -/
theorem near {f g : ℝ → ℝ} {d v : ℝ} (hg : HasDerivAt g d v) (h : f =ᶠ[nhds v] g) : HasDerivAt f d v :=
  hg.congr_of_eventuallyEq h

/-- Below a moving boundary. -/
theorem ev_lt {f g : ℝ → ℝ} {f' g' v : ℝ} (hf : HasDerivAt f f' v) (hg : HasDerivAt g g' v) (h : f v < g v) :
    ∀ᶠ t in nhds v, f t < g t :=
  hf.continuousAt.eventually_lt hg.continuousAt h

/-- The derivative by the value from the one by the true value. -/
theorem partial_of {f : Pars → ℝ} {p : Pars} {i : Nat} {g : ℝ → ℝ} {d d' : ℝ}
    (hg : ∀ t, f (setv p i t) = g (t * (p i).scale)) (h : HasDerivAt g d' (p i).tv) (hd : d = d' * (p i).scale) :
    Partial f p i d := by
  subst hd
  unfold Partial
  simp only [hg]
  exact HasDerivAt.comp (p i).value (h₂ := g) h (lin (p i).scale (p i).value)

/-- The same with a formula valid nearby. -/
theorem partial_ev {f : Pars → ℝ} {p : Pars} {i : Nat} {g : ℝ → ℝ} {d d' : ℝ}
    (hg : ∀ᶠ a in nhds (p i).tv, ∀ t, t * (p i).scale = a → f (setv p i t) = g a) (h : HasDerivAt g d' (p i).tv)
    (hd : d = d' * (p i).scale) : Partial f p i d := by
  subst hd
  unfold Partial
  have h1 : HasDerivAt (fun t => g (t * (p i).scale)) (d' * (p i).scale) (p i).value :=
    HasDerivAt.comp (p i).value (h₂ := g) h (lin (p i).scale (p i).value)
  refine h1.congr_of_eventuallyEq ?_
  have h2 : Filter.Tendsto (fun t => t * (p i).scale) (nhds (p i).value) (nhds (p i).tv) :=
    (lin (p i).scale (p i).value).continuousAt
  filter_upwards [h2.eventually hg] with t ht
  exact ht t rfl

theorem idd (v : ℝ) : HasDerivAt (fun t : ℝ => t) 1 v := hasDerivAt_id v

theorem lg10 {x : ℝ} : Real.logb 10 x = Real.log x / Real.log 10 := rfl

theorem setv_self (p : Pars) (i : Nat) : setv p i (p i).value = p := Function.update_eq_self i p

/-- A factor of the whole. -/
theorem partial_norm {f : Pars → ℝ} {p : Pars} {i : Nat} {d : ℝ} (c : ℝ)
    (hc : ∀ t, f (setv p i t) = t * (p i).scale * c) (hn : (p i).tv ≠ 0) (hd : d = f p / (p i).tv * (p i).scale) :
    Partial f p i d := by
  have h : f p = (p i).tv * c := by
    have := hc (p i).value
    rwa [setv_self] at this
  refine partial_of (g := fun a => a * c) hc ((idd _).mul_const c) ?_
  rw [hd, h]; field_simp

/-- No dependence. -/
theorem partial_zero {f : Pars → ℝ} {p : Pars} {i : Nat} (hc : ∀ t, f (setv p i t) = f p) : Partial f p i 0 := by
  unfold Partial
  simp only [hc]
  exact hasDerivAt_const _ _

/-- No dependence nearby. -/
theorem partial_zero' {f : Pars → ℝ} {p : Pars} {i : Nat} (c : ℝ)
    (hc : ∀ᶠ t in nhds (p i).value, f (setv p i t) = c) : Partial f p i 0 :=
  (hasDerivAt_const (p i).value c).congr_of_eventuallyEq hc

theorem glue {f g h : ℝ → ℝ} {d v : ℝ} (hg : HasDerivAt g d v) (hh : HasDerivAt h d v) (he : g v = h v)
    (hf : ∀ t, f t = g t ∨ f t = h t) : HasDerivAt f d v := by
  have hfv : f v = g v := by rcases hf v with h1 | h1 <;> simp [h1, he]
  rw [hasDerivAt_iff_isLittleO, Asymptotics.isLittleO_iff] at *
  intro c hc
  filter_upwards [hg hc, hh hc] with t h1 h2
  rcases hf t with h3 | h3
  · rw [h3, hfv]; exact h1
  · rw [h3, hfv, he]; exact h2

/-- A function given by two formulas on the two sides of a moving boundary. -/
theorem piece {f g h a b : ℝ → ℝ} {d v : ℝ} (ha : ContinuousAt a v) (hb : ContinuousAt b v)
    (hf : ∀ t, f t = if a t < b t then g t else h t) (hg : a v ≤ b v → HasDerivAt g d v)
    (hh : b v ≤ a v → HasDerivAt h d v) (he : a v = b v → g v = h v) : HasDerivAt f d v := by
  rcases lt_trichotomy (a v) (b v) with h1 | h1 | h1
  · refine (hg h1.le).congr_of_eventuallyEq ?_
    filter_upwards [ha.eventually_lt hb h1] with t ht
    rw [hf, if_pos ht]
  · refine glue (hg h1.le) (hh h1.ge) (he h1) fun t => ?_
    rw [hf]; split
    · exact .inl rfl
    · exact .inr rfl
  · refine (hh h1.le).congr_of_eventuallyEq ?_
    filter_upwards [hb.eventually_lt ha h1] with t ht
    rw [hf, if_neg ht.le.not_gt]

end Verif.Spectra
