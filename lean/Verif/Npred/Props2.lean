import Verif.Npred.Props
import Mathlib.Analysis.SpecialFunctions.Integrals.Basic
import Mathlib.Analysis.Calculus.MeanValue
/-
C96: fluxes of sources.  C97: counts spectra.
-/
set_option linter.unusedSectionVars false
set_option linter.unusedSimpArgs false
set_option linter.unusedVariables false
namespace Verif.Npred
open Verif Verif.Vec Real Spec

/-! ### Fluxes -/

theorem fluxGrid_eq {a b : ℝ} (ha : 0 < a) (hb : 0 < b) (n : ℕ) : fluxGrid a b n = logPoints a b n := by
  unfold fluxGrid logPoints
  apply List.map_congr_left
  intro k _
  rw [rpow_def_of_pos (by positivity)]
  congr 2
  ring

/-- C96.  The flux is the logarithmic trapezoid of the spectrum, at so many energies in equal steps of the
logarithm from the lower to the upper limit. -/
theorem C96_flux (f : ℝ → ℝ) {a b : ℝ} (ha : 0 < a) (hb : 0 < b) {n : ℕ} (hn : 2 ≤ n) :
    flux f a b n = .ok (TrapQuad.logTrapezoid ((logPoints a b n).map fun e => (e, f e))) := by
  unfold flux fluxOn
  rw [fluxGrid_eq ha hb]
  obtain ⟨q, h⟩ := TrapQuad.C26_function_on_grid f (logPoints a b n) (by rw [logPoints_length]; exact hn) true (fun _ => logPoints_pos ha hb n)
  rw [h, Res.bind_ok]
  rfl

/-- A case. -/
example : flux (fun e => e) 1 4 3 = .ok (25 / 2 * log 2) := by
  rw [C96_flux _ (by norm_num) (by norm_num) (by norm_num)]
  have p1 : logPoints 1 4 3 = [1, 2, 4] := by have := points3 (a := 1) (q := 2) (by norm_num) (by norm_num); norm_num at this; exact this
  have l4 : log 4 = 2 * log 2 := by rw [show (4 : ℝ) = 2 ^ 2 by norm_num, log_pow]; norm_num
  rw [p1]
  simp only [List.map_cons, List.map_nil, TrapQuad.logTrapezoid, TrapQuad.trapezoid]
  rw [l4, log_one]
  congr 1
  ring

/-- The flux as a sum over the segments. -/
theorem flux_sum (f : ℝ → ℝ) {a b : ℝ} (ha : 0 < a) (hb : 0 < b) {n : ℕ} (hn : 2 ≤ n) :
    flux f a b n = .ok (∑ i ∈ Finset.range (n - 1), (val (logPoints a b n) i * f (val (logPoints a b n) i) +
      val (logPoints a b n) (i + 1) * f (val (logPoints a b n) (i + 1))) / 2 * ((log b - log a) / ((n : ℝ) - 1))) := by
  rw [C96_flux f ha hb hn]
  congr 1
  have hz : (logPoints a b n).map (fun e => (e, f e)) = (logPoints a b n).zip ((logPoints a b n).map f) := by
    generalize logPoints a b n = l
    induction l with
    | nil => rfl
    | cons x l ih => rw [List.map_cons, ih, List.map_cons, List.zip_cons_cons]
  rw [hz, TrapQuad.logTrapezoid_zip (by simp) (by rw [List.length_map, logPoints_length]; exact hn), List.length_map, logPoints_length]
  apply Finset.sum_congr rfl
  intro i hi
  have hi := Finset.mem_range.1 hi
  have hv : ∀ k, k < n → val ((logPoints a b n).map f) k = f (val (logPoints a b n) k) := by
    intro k hk
    rw [val_lt (by rw [List.length_map, logPoints_length]; exact hk), val_lt (by rw [logPoints_length]; exact hk), List.getElem_map]
  rw [hv i (by omega), hv (i + 1) (by omega), log_points ha hb (by omega), log_points ha hb (by omega)]
  push_cast
  ring

/-- C96.  Fluxes are linear in the spectrum. -/
theorem C96_linear (f g : ℝ → ℝ) (s t : ℝ) {a b : ℝ} (ha : 0 < a) (hb : 0 < b) {n : ℕ} (hn : 2 ≤ n) :
    ∃ x y, flux f a b n = .ok x ∧ flux g a b n = .ok y ∧ flux (fun e => s * f e + t * g e) a b n = .ok (s * x + t * y) := by
  refine ⟨_, _, flux_sum f ha hb hn, flux_sum g ha hb hn, ?_⟩
  rw [flux_sum _ ha hb hn, Finset.mul_sum, Finset.mul_sum, ← Finset.sum_add_distrib]
  congr 1
  apply Finset.sum_congr rfl
  intro i _
  ring

/-- C96.  The derivative of a flux with respect to a parameter is the flux of the derivative. -/
theorem C96_derivative (f : ℝ → ℝ → ℝ) (df : ℝ → ℝ) (θ : ℝ) (hd : ∀ e, HasDerivAt (fun t => f t e) (df e) θ) {a b : ℝ} (ha : 0 < a) (hb : 0 < b)
    {n : ℕ} (hn : 2 ≤ n) :
    ∃ (F : ℝ → ℝ) (d : ℝ), (∀ t, flux (f t) a b n = .ok (F t)) ∧ flux df a b n = .ok d ∧ HasDerivAt F d θ := by
  refine ⟨_, _, fun t => flux_sum (f t) ha hb hn, flux_sum df ha hb hn, ?_⟩
  refine HasDerivAt.fun_sum fun i _ => ?_
  refine HasDerivAt.mul_const (HasDerivAt.div_const (HasDerivAt.add ?_ ?_) 2) _
  · exact (hd _).const_mul _
  · exact (hd _).const_mul _

/-- The hypotheses can be met: a power law and its index. -/
example (e θ : ℝ) (he : 0 < e) : HasDerivAt (fun t => e ^ t) (e ^ θ * log e) θ := (Real.hasStrictDerivAt_const_rpow he θ).hasDerivAt

/-- C96.  The flux of `N/E` is exact, with any number of points; so is the energy flux of `N/E²`. -/
theorem C96_inverse (N : ℝ) {a b : ℝ} (ha : 0 < a) (hb : 0 < b) {n : ℕ} (hn : 2 ≤ n) :
    flux (fun e => N * (1 / e)) a b n = .ok (∫ e in a..b, N * (1 / e)) := by
  rw [intervalIntegral.integral_const_mul, integral_one_div_of_pos ha hb, flux_sum _ ha hb hn]
  congr 1
  have hn1 : (0 : ℝ) < (n : ℝ) - 1 := by
    have : (2 : ℝ) ≤ n := by exact_mod_cast hn
    linarith
  have : ∀ i ∈ Finset.range (n - 1), (val (logPoints a b n) i * (N * (1 / val (logPoints a b n) i)) +
      val (logPoints a b n) (i + 1) * (N * (1 / val (logPoints a b n) (i + 1)))) / 2 * ((log b - log a) / ((n : ℝ) - 1)) =
      N * ((log b - log a) / ((n : ℝ) - 1)) := by
    intro i hi
    have hi := Finset.mem_range.1 hi
    have p1 := logPoints_pos ha hb n _ (val_mem (l := logPoints a b n) (k := i) (by rw [logPoints_length]; omega))
    have p2 := logPoints_pos ha hb n _ (val_mem (l := logPoints a b n) (k := i + 1) (by rw [logPoints_length]; omega))
    field_simp
    ring
  rw [Finset.sum_congr rfl this, Finset.sum_const, Finset.card_range, nsmul_eq_mul, log_div hb.ne' ha.ne', Nat.cast_sub (by omega)]
  push_cast
  field_simp

/-- What the rule makes of an exponential of step `h`, relative to its integral. -/
noncomputable def excess (h : ℝ) : ℝ := h / 2 * (exp h + 1) / (exp h - 1)

/-- C96.  The flux of a power law of index `γ ≠ 1` is the integral times a factor that depends only on the
index and on the step of the logarithm. -/
theorem C96_power_law (N γ : ℝ) (hγ : γ ≠ 1) {a b : ℝ} (ha : 0 < a) (hab : a < b) {n : ℕ} (hn : 2 ≤ n) :
    flux (fun e => N * e ^ (-γ)) a b n = .ok ((∫ e in a..b, N * e ^ (-γ)) * excess ((1 - γ) * (log (b / a) / ((n : ℝ) - 1)))) := by
  have hb : 0 < b := lt_trans ha hab
  have hn1 : (0 : ℝ) < (n : ℝ) - 1 := by
    have : (2 : ℝ) ≤ n := by exact_mod_cast hn
    linarith
  have hg : 1 - γ ≠ 0 := sub_ne_zero.2 hγ.symm
  have hI : ∫ e in a..b, N * e ^ (-γ) = N * ((b ^ (1 - γ) - a ^ (1 - γ)) / (1 - γ)) := by
    rw [intervalIntegral.integral_const_mul, integral_rpow (.inr ⟨fun h => hγ (by linarith), ?_⟩)]
    · rw [show -γ + 1 = 1 - γ by ring]
    · rw [Set.uIcc_of_le hab.le, Set.mem_Icc]; rintro ⟨h, -⟩; linarith
  rw [hI, flux_sum _ ha hb hn]
  congr 1
  set d := log (b / a) / ((n : ℝ) - 1) with hd
  have hdpos : 0 < d := div_pos (log_pos ((one_lt_div ha).2 hab)) hn1
  set q := exp ((1 - γ) * d) with hq
  have hq1 : q - 1 ≠ 0 := by
    intro h
    have : exp ((1 - γ) * d) = exp 0 := by rw [exp_zero]; linarith
    have := exp_injective this
    rcases mul_eq_zero.1 this with h | h
    · exact hg h
    · linarith
  have term : ∀ i, i < n → val (logPoints a b n) i * (N * (val (logPoints a b n) i) ^ (-γ)) = N * a ^ (1 - γ) * q ^ i := by
    intro i hi
    have p := logPoints_pos ha hb n _ (val_mem (l := logPoints a b n) (k := i) (by rw [logPoints_length]; omega))
    have l := log_points ha hb hi
    have e1 : val (logPoints a b n) i * (val (logPoints a b n) i) ^ (-γ) = (val (logPoints a b n) i) ^ (1 - γ) := by
      rw [show 1 - γ = 1 + -γ by ring, rpow_add p, rpow_one]
    calc _ = N * (val (logPoints a b n) i * (val (logPoints a b n) i) ^ (-γ)) := by ring
      _ = N * (a ^ (1 - γ) * q ^ i) := by
        rw [e1, rpow_def_of_pos p, l, rpow_def_of_pos ha, hq, ← exp_nat_mul, ← exp_add, hd, log_div hb.ne' ha.ne']
        congr 2
        ring
      _ = _ := by ring
  have dd : (log b - log a) / ((n : ℝ) - 1) = d := by rw [hd, log_div hb.ne' ha.ne']
  have sm : ∀ i ∈ Finset.range (n - 1), (val (logPoints a b n) i * (N * (val (logPoints a b n) i) ^ (-γ)) +
      val (logPoints a b n) (i + 1) * (N * (val (logPoints a b n) (i + 1)) ^ (-γ))) / 2 * ((log b - log a) / ((n : ℝ) - 1)) =
      q ^ i * (N * a ^ (1 - γ) * (1 + q) / 2 * d) := by
    intro i hi
    have hi := Finset.mem_range.1 hi
    rw [term i (by omega), term (i + 1) (by omega), dd]
    ring
  rw [Finset.sum_congr rfl sm, ← Finset.sum_mul, geom_sum_eq (by intro h; exact hq1 (by rw [h]; ring))]
  have qn : a ^ (1 - γ) * q ^ (n - 1) = b ^ (1 - γ) := by
    rw [hq, ← exp_nat_mul, rpow_def_of_pos ha, rpow_def_of_pos hb, ← exp_add, hd, log_div hb.ne' ha.ne', Nat.cast_sub (by omega)]
    congr 1
    push_cast
    field_simp
    ring
  rw [← qn]
  unfold excess
  rw [← hq]
  field_simp
  ring

/-- The hypotheses can be met: index 2 from 100 to 300000 MeV. -/
example : flux (fun e => 3 * e ^ (-2 : ℝ)) 100 300000 100 =
    .ok ((∫ e in (100 : ℝ)..300000, 3 * e ^ (-2 : ℝ)) * excess ((1 - 2) * (log (300000 / 100) / (((100 : ℕ) : ℝ) - 1)))) :=
  C96_power_law 3 2 (by norm_num) (by norm_num) (by norm_num) (by norm_num)

theorem nonneg_of_deriv {f f' : ℝ → ℝ} (h0 : f 0 = 0) (hd : ∀ x, HasDerivAt f (f' x) x) (hp : ∀ x, 0 ≤ x → 0 ≤ f' x) : ∀ x, 0 ≤ x → 0 ≤ f x := by
  intro x hx
  have hm : MonotoneOn f (Set.Ici 0) := by
    refine monotoneOn_of_deriv_nonneg (convex_Ici 0) (fun x _ => (hd x).continuousAt.continuousWithinAt)
      (fun x _ => (hd x).differentiableAt.differentiableWithinAt) ?_
    intro y hy
    rw [interior_Ici] at hy
    rw [(hd y).deriv]
    exact hp y (le_of_lt hy)
  have := hm (Set.mem_Ici.2 le_rfl) (Set.mem_Ici.2 hx) hx
  rwa [h0] at this

theorem excess_neg (h : ℝ) : excess (-h) = excess h := by
  unfold excess
  by_cases h0 : h = 0
  · subst h0; simp
  · have e : exp h - 1 ≠ 0 := by
      intro h'
      have : exp h = exp 0 := by rw [exp_zero]; linarith
      exact h0 (exp_injective this)
    have e' : exp (-h) - 1 ≠ 0 := by
      intro h'
      have : exp (-h) = exp 0 := by rw [exp_zero]; linarith
      exact h0 (by have := exp_injective this; linarith)
    rw [div_eq_div_iff e' e, exp_neg]
    have := exp_pos h
    field_simp
    ring

/-- The factor is at least one and at most `1 + h²/12`. -/
theorem excess_bounds {h : ℝ} (h0 : h ≠ 0) : 1 < excess h ∧ excess h ≤ 1 + h ^ 2 / 12 := by
  have key : ∀ h : ℝ, 0 < h → 1 < excess h ∧ excess h ≤ 1 + h ^ 2 / 12 := by
    intro h hpos
    have e1 : 0 < exp h - 1 := by have := one_lt_exp_iff.2 hpos; linarith
    constructor
    · have := lt_log_one_add_of_pos e1
      rw [show 1 + (exp h - 1) = exp h by ring, log_exp, show exp h - 1 + 2 = exp h + 1 by ring, div_lt_iff₀ (by positivity)] at this
      unfold excess
      rw [one_lt_div e1]
      linarith
    · unfold excess
      rw [div_le_iff₀ e1]
      have h3 : ∀ x : ℝ, 0 ≤ x → 0 ≤ exp x * (1 / 6 - x / 6 + x ^ 2 / 12) - 1 / 6 := by
        refine nonneg_of_deriv (f' := fun x => exp x * (x ^ 2 / 12)) (by norm_num) (fun x => ?_) (fun x _ => by positivity)
        have := ((Real.hasDerivAt_exp x).mul ((((hasDerivAt_id x).div_const 6).const_sub (1 / 6)).add ((hasDerivAt_pow 2 x).div_const 12))).sub_const (1 / 6)
        refine this.congr_deriv ?_
        simp
        ring
      have h2 : ∀ x : ℝ, 0 ≤ x → 0 ≤ exp x * (1 / 2 - x / 3 + x ^ 2 / 12) - x / 6 - 1 / 2 := by
        refine nonneg_of_deriv (f' := fun x => exp x * (1 / 6 - x / 6 + x ^ 2 / 12) - 1 / 6) (by norm_num) (fun x => ?_) h3
        have := (((Real.hasDerivAt_exp x).mul ((((hasDerivAt_id x).div_const 3).const_sub (1 / 2)).add ((hasDerivAt_pow 2 x).div_const 12))).sub
          ((hasDerivAt_id x).div_const 6)).sub_const (1 / 2)
        refine this.congr_deriv ?_
        simp
        ring
      have h1 : ∀ x : ℝ, 0 ≤ x → 0 ≤ (1 + x ^ 2 / 12) * (exp x - 1) - x / 2 * (exp x + 1) := by
        refine nonneg_of_deriv (f' := fun x => exp x * (1 / 2 - x / 3 + x ^ 2 / 12) - x / 6 - 1 / 2) (by norm_num) (fun x => ?_) h2
        have := ((((hasDerivAt_pow 2 x).div_const 12).const_add 1).mul ((Real.hasDerivAt_exp x).sub_const 1)).sub
          (((hasDerivAt_id x).div_const 2).mul ((Real.hasDerivAt_exp x).add_const 1))
        refine this.congr_deriv ?_
        simp
        ring
      linarith [h1 h hpos.le]
  rcases lt_or_gt_of_ne h0 with hn | hp
  · have := key (-h) (by linarith)
    rw [excess_neg] at this
    simpa using this
  · exact key h hp

/-- C96.  The flux of a power law is never less than the integral, and the relative error is at most a
twelfth of the square of the step of the logarithm times `1 - γ`. -/
theorem C96_accuracy (N γ : ℝ) (hN : 0 ≤ N) (hγ : γ ≠ 1) {a b : ℝ} (ha : 0 < a) (hab : a < b) {n : ℕ} (hn : 2 ≤ n) :
    ∃ v, flux (fun e => N * e ^ (-γ)) a b n = .ok v ∧ (∫ e in a..b, N * e ^ (-γ)) ≤ v ∧
      v ≤ (∫ e in a..b, N * e ^ (-γ)) * (1 + ((1 - γ) * (log (b / a) / ((n : ℝ) - 1))) ^ 2 / 12) := by
  refine ⟨_, C96_power_law N γ hγ ha hab hn, ?_⟩
  have hn1 : (0 : ℝ) < (n : ℝ) - 1 := by
    have : (2 : ℝ) ≤ n := by exact_mod_cast hn
    linarith
  have hI : 0 ≤ ∫ e in a..b, N * e ^ (-γ) :=
    intervalIntegral.integral_nonneg hab.le (fun e he => mul_nonneg hN (rpow_nonneg (by linarith [he.1]) _))
  have hh : (1 - γ) * (log (b / a) / ((n : ℝ) - 1)) ≠ 0 :=
    mul_ne_zero (sub_ne_zero.2 hγ.symm) (div_pos (log_pos ((one_lt_div ha).2 hab)) hn1).ne'
  obtain ⟨h1, h2⟩ := excess_bounds hh
  exact ⟨le_mul_of_one_le_right hI h1.le, mul_le_mul_of_nonneg_left h2 hI⟩

/-- C96 is violated for fewer than two points: memory outside of the vector is read. -/
theorem C96_points_violates (f : ℝ → ℝ) (a b : ℝ) {n : ℕ} (hn : n < 2) : flux f a b n = .ub := by
  unfold flux fluxOn TrapQuad.Obj.integralOn TrapQuad.Obj.ofFunc TrapQuad.Obj.compute TrapQuad.computeLogIntegral
  simp only [if_true, List.length_map, fluxGrid, List.length_range, if_pos hn, Res.bind_ub]

/-- C96.  The flux of a diffuse source is that of the spectrum times the integral of the brightness over
the sky. -/
theorem C96_diffuse (f ang : ℝ → ℝ) {a b : ℝ} (ha : 0 < a) (hb : 0 < b) {n : ℕ} (hn : 2 ≤ n) :
    diffuseFlux f ang a b n = flux (fun e => f e * ang e) a b n := by
  unfold diffuseFlux diffuseFluxOn flux fluxOn TrapQuad.Obj.integralOn TrapQuad.Obj.ofFunc TrapQuad.Obj.compute TrapQuad.Obj.ofVectors
    TrapQuad.Obj.integral TrapQuad.Obj.compute
  simp only [if_true]
  cases TrapQuad.computeLogIntegral (fluxGrid a b n) ((fluxGrid a b n).map fun e => f e * ang e) <;> rfl

/-- C96 is violated for an isotropic source with a value that is not one: the flux does not depend on the
value, while the brightness is proportional to it. -/
theorem C96_isotropic_violates (f : ℝ → ℝ) (v : ℝ) {a b : ℝ} (ha : 0 < a) (hb : 0 < b) {n : ℕ} (hn : 2 ≤ n) :
    diffuseFlux f (angularIntegral (.constant v)) a b n = flux (fun e => f e * (4 * π)) a b n := C96_diffuse f _ ha hb hn

/-- A case in which it matters: the flux is not zero. -/
example : ∃ v : ℝ, diffuseFlux (fun e => 1 * (1 / e)) (angularIntegral (.constant 2)) 1 2 2 = .ok v ∧ v ≠ 0 := by
  rw [C96_diffuse _ _ (by norm_num) (by norm_num) le_rfl]
  have : (fun e : ℝ => 1 * (1 / e) * angularIntegral (.constant 2) e) = fun e => (4 * π) * (1 / e) := by
    funext e; simp only [angularIntegral]; ring
  rw [this, C96_inverse _ (by norm_num) (by norm_num) le_rfl]
  refine ⟨_, rfl, ?_⟩
  rw [intervalIntegral.integral_const_mul, integral_one_div_of_pos (by norm_num) (by norm_num)]
  have := log_pos (show (1 : ℝ) < 2 / 1 by norm_num)
  have := pi_pos
  positivity

/-! ### Counts spectra -/

/-- C97.  The bounds are so many energies from the lower to the upper limit in equal steps of the
logarithm, the last one exactly the upper limit. -/
theorem C97_bounds {a b : ℝ} (ha : 0 < a) (hab : a < b) {n : ℕ} (hn : 2 ≤ n) :
    ∃ l, setEbounds a b n = .ok l ∧ l = logPoints a b n ∧ l.Pairwise (· < ·) ∧ l.head? = some a ∧ l.getLast? = some b := by
  have hb : 0 < b := lt_trans ha hab
  have hn1 : (0 : ℝ) < (n : ℝ) - 1 := by
    have : (2 : ℝ) ≤ n := by exact_mod_cast hn
    linarith
  have e : (List.range (n - 1)).map (fun k : ℕ => a * exp (k * (log (b / a) / ((n : ℝ) - 1)))) ++ [b] = logPoints a b n := by
    obtain ⟨m, rfl⟩ : ∃ m, n = m + 1 := ⟨n - 1, by omega⟩
    unfold logPoints
    rw [List.range_succ, List.map_append, Nat.add_sub_cancel]
    congr 1
    · apply List.map_congr_left
      intro k _
      rw [rpow_def_of_pos (by positivity)]
      congr 2
      ring
    · have : (m : ℝ) / (((m + 1 : ℕ) : ℝ) - 1) = 1 := by
        push_cast at hn1 ⊢
        rw [show (m : ℝ) + 1 - 1 = m by ring] at hn1 ⊢
        exact div_self hn1.ne'
      rw [List.map_cons, List.map_nil, this, rpow_one, mul_div_cancel₀ _ ha.ne']
  refine ⟨_, by unfold setEbounds; rw [if_neg (by omega)], e, ?_, ?_, ?_⟩
  · rw [e, pairwise_val]
    intro i j hij hj
    rw [logPoints_length] at hj
    have hi : i < n := by omega
    rw [← log_lt_log_iff (logPoints_pos ha hb n _ (val_mem (by rw [logPoints_length]; omega)))
      (logPoints_pos ha hb n _ (val_mem (by rw [logPoints_length]; omega))), log_points ha hb hi, log_points ha hb hj]
    have l := log_lt_log ha hab
    have : (i : ℝ) / ((n : ℝ) - 1) < (j : ℝ) / ((n : ℝ) - 1) := div_lt_div_of_pos_right (by exact_mod_cast hij) hn1
    nlinarith
  · obtain ⟨m, hm⟩ : ∃ m, n - 1 = m + 1 := ⟨n - 2, by omega⟩
    rw [hm, List.range_succ_eq_map]
    simp
  · simp

/-- The hypotheses can be met. -/
example : (0 : ℝ) < 100 ∧ (100 : ℝ) < 300000 ∧ 2 ≤ 21 := by norm_num

/-- C97.  The counts of a source in each bin are its predicted counts between the bounds of that bin. -/
theorem C97_counts (E X : List ℝ) (S : ℝ → ℝ) (l : List ℝ) (c : ℝ → ℝ → ℝ)
    (hc : ∀ k a b, l[k]? = some a → l[k + 1]? = some b → npredRange E X S a b = .ok (c a b)) :
    ∃ out, srcCounts E X S l = .ok out ∧ out.length = l.length - 1 ∧
      ∀ k a b, l[k]? = some a → l[k + 1]? = some b → out[k]? = some (c a b) := by
  induction l with
  | nil => exact ⟨[], rfl, rfl, fun k a b h => by simp at h⟩
  | cons x l ih =>
    cases l with
    | nil => exact ⟨[], rfl, rfl, fun k a b _ h => by simp at h⟩
    | cons y l =>
      obtain ⟨out, h1, h2, h3⟩ := ih (fun k a b ha hb => hc (k + 1) a b (by simpa using ha) (by simpa using hb))
      refine ⟨c x y :: out, ?_, by simp at h2 ⊢; omega, ?_⟩
      · rw [srcCounts, hc 0 x y rfl rfl, Res.bind_ok, h1, Res.bind_ok]
      · intro k a b ha hb
        cases k with
        | zero => simp at ha hb; subst ha; subst hb; rfl
        | succ k =>
          rw [List.getElem?_cons_succ]
          exact h3 k a b (by simpa using ha) (by simpa using hb)

theorem addCounts_ok {t c : List ℝ} (h : t.length = c.length) :
    ∃ w, addCounts t c = .ok w ∧ w.length = t.length ∧ ∀ j, j < t.length → val w j = val t j + val c j := by
  unfold addCounts
  obtain ⟨w, h1, h2, h3⟩ := loop_inv (lo := 0) (n := c.length) (s := t) (body := fun j (t : List ℝ) => do
      let x ← vget t j
      let y ← vget c j
      vset t j (x + y)) (fun i w => w.length = t.length ∧ ∀ j, val w j = if j < i then val t j + val c j else val t j)
    ⟨rfl, fun j => by simp⟩ (by
      rintro i w - hi ⟨hw, hv⟩
      refine ⟨w.set i (val w i + val c i), ?_, by simpa using hw, ?_⟩
      · rw [vget_val (by omega), Res.bind_ok, vget_val (by omega), Res.bind_ok, vset_lt _ _ _ (by omega)]
      · intro j
        rw [val_set (by omega)]
        by_cases hj : j = i
        · subst hj; rw [if_pos rfl, hv, if_neg (lt_irrefl _), if_pos (Nat.lt_succ_self _)]
        · rw [if_neg hj, hv]
          by_cases hji : j < i
          · rw [if_pos hji, if_pos (by omega)]
          · rw [if_neg hji, if_neg (by omega)])
  refine ⟨w, h1, h2, fun j hj => ?_⟩
  rw [h3, if_pos (by omega)]

/-- C97.  The total counts in each bin are the sum of the counts of all sources. -/
theorem C97_total (c : List ℝ) (cs : List (List ℝ)) (h : ∀ d ∈ cs, d.length = c.length) :
    ∃ t, totalCounts (c :: cs) = .ok t ∧ t.length = c.length ∧
      ∀ j (hj : j < t.length), t[j] = ((c :: cs).map fun d => d.getD j 0).sum := by
  have key : ∀ (cs : List (List ℝ)) (t : List ℝ), (∀ d ∈ cs, d.length = t.length) → ∃ w, totalLoop cs t = .ok w ∧ w.length = t.length ∧
      ∀ j, j < t.length → val w j = val t j + (cs.map fun d => val d j).sum := by
    intro cs
    induction cs with
    | nil => intro t _; exact ⟨t, rfl, rfl, fun j _ => by simp⟩
    | cons d cs ih =>
      intro t ht
      obtain ⟨w, h1, h2, h3⟩ := addCounts_ok (ht d (by simp)).symm
      obtain ⟨w', k1, k2, k3⟩ := ih w (fun d' hd' => by rw [h2]; exact ht d' (by simp [hd']))
      refine ⟨w', by rw [totalLoop, h1, Res.bind_ok, k1], by omega, fun j hj => ?_⟩
      rw [k3 j (by omega), h3 j hj, List.map_cons, List.sum_cons, add_assoc]
  obtain ⟨t, h1, h2, h3⟩ := key cs c h
  refine ⟨t, h1, h2, fun j hj => ?_⟩
  have := h3 j (by omega)
  rw [val_lt hj] at this
  rw [this, List.map_cons, List.sum_cons]
  have hg : ∀ d : List ℝ, d.getD j 0 = val d j := fun d => by simp [val, List.getD]
  simp only [hg]

/-- The hypotheses can be met. -/
example : ∀ d ∈ ([[1, 2], [3, 4]] : List (List ℝ)), d.length = ([5, 6] : List ℝ).length := by simp

/-- C97 is violated without sources: the total has no bins, whatever the bounds are. -/
theorem C97_no_sources_violates : totalCounts [] = .ok [] := rfl

/-- C97 is violated for the sum over the bins: it is not the number of counts of the source, with the bins
at the energies at which the exposure is known. -/
theorem C97_sum_violates : ∃ l v, srcCounts [1, 4, 16] [1, 1, 1] (fun _ => 1) [1, 4, 16] = .ok l ∧
    npred [1, 4, 16] [1, 1, 1] (fun _ => 1) = .ok v ∧ l.sum < v := by
  obtain ⟨a, b, c, h1, h2, h3, h4⟩ := C95_additive_violates
  refine ⟨[a, b], c, ?_, ?_, by simpa using h4⟩
  · simp only [srcCounts, h1, h2, Res.bind_ok]
  · rw [← C95_whole (X := [1, 1, 1]) grid3 (fun _ => 1) (emin := 1) (emax := 16) (by norm_num) (by norm_num)]
    exact h3

end Verif.Npred
