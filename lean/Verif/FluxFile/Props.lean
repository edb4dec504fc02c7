import Verif.FluxFile.Model
import Mathlib.MeasureTheory.Integral.IntervalIntegral.Basic
import Mathlib.MeasureTheory.Integral.IntervalIntegral.FundThmCalculus
import Mathlib.Analysis.SpecialFunctions.Integrals.Basic
import Mathlib.Analysis.Convex.Function
import Mathlib.Tactic.FieldSimp
import Mathlib.Tactic.LinearCombination
/-
C78: the flux of a source in the file for the flux simulator.
-/
set_option linter.unusedSimpArgs false
set_option linter.unusedVariables false
namespace Verif.FluxFile
open Verif.Xml (Node)
open MeasureTheory intervalIntegral

/-! ### The energies -/

theorem energy_pos (emin emax : ℝ) (i : ℕ) : 0 < energy emin emax i := by
  unfold energy; positivity

theorem energy_zero {emin : ℝ} (h : 0 < emin) (emax : ℝ) : energy emin emax 0 = emin := by
  unfold energy
  rw [Nat.cast_zero, zero_mul, add_zero]
  exact Real.rpow_logb (by norm_num) (by norm_num) h

theorem energy_last {emax : ℝ} (emin : ℝ) (h : 0 < emax) : energy emin emax nsteps = emax := by
  unfold energy
  have : Real.logb 10 emin + (nsteps : ℝ) * ((Real.logb 10 emax - Real.logb 10 emin) / nsteps) =
      Real.logb 10 emax := by
    have : (nsteps : ℝ) ≠ 0 := by unfold nsteps; norm_num
    field_simp
    ring
  rw [this]
  exact Real.rpow_logb (by norm_num) (by norm_num) h

/-- The ratio of two neighbouring energies. -/
noncomputable def ratio (emin emax : ℝ) : ℝ := (emax / emin) ^ ((1 : ℝ) / 100)

theorem energy_succ {emin emax : ℝ} (h1 : 0 < emin) (h2 : 0 < emax) (i : ℕ) :
    energy emin emax (i + 1) = ratio emin emax * energy emin emax i := by
  have hr : ratio emin emax = (10 : ℝ) ^ ((Real.logb 10 emax - Real.logb 10 emin) / nsteps) := by
    unfold ratio
    rw [← Real.logb_div h2.ne' h1.ne', div_eq_mul_inv (Real.logb _ _), Real.rpow_mul (by norm_num),
      Real.rpow_logb (by norm_num) (by norm_num) (by positivity)]
    congr 1
    unfold nsteps
    norm_num
  rw [hr]
  unfold energy
  rw [← Real.rpow_add (by norm_num)]
  congr 1
  push_cast
  ring

theorem one_le_ratio {emin emax : ℝ} (h1 : 0 < emin) (h : emin ≤ emax) : 1 ≤ ratio emin emax := by
  unfold ratio
  exact Real.one_le_rpow ((one_le_div h1).2 h) (by norm_num)

theorem energy_le_succ {emin emax : ℝ} (h1 : 0 < emin) (h : emin ≤ emax) (i : ℕ) :
    energy emin emax i ≤ energy emin emax (i + 1) := by
  rw [energy_succ h1 (h1.trans_le h)]
  have := energy_pos emin emax i
  nlinarith [one_le_ratio h1 h]

theorem energy_mono {emin emax : ℝ} (h1 : 0 < emin) (h : emin ≤ emax) :
    Monotone (energy emin emax) := monotone_nat_of_le_succ (energy_le_succ h1 h)

theorem energy_mem {emin emax : ℝ} (h1 : 0 < emin) (h : emin ≤ emax) {i : ℕ} (hi : i ≤ nsteps) :
    energy emin emax i ∈ Set.Icc emin emax := by
  constructor
  · exact (energy_zero h1 emax).symm.le.trans (energy_mono h1 h (Nat.zero_le _))
  · exact (energy_mono h1 h hi).trans (energy_last emin (h1.trans_le h)).le

/-! ### The sum -/

/-- The sum of the trapezia over the first energies. -/
noncomputable def trapSum (f : ℝ → ℝ) (e : ℕ → ℝ) : ℕ → ℝ
  | 0 => 0
  | n + 1 => trapSum f e n + 1 / 2 * (f (e n) + f (e (n + 1))) * (e (n + 1) - e n)

theorem sumSteps_ok (f : ℝ → ℝ) (emin emax : ℝ) (n : ℕ) :
    sumSteps (fun x => .ok (f x)) emin emax n = .ok (trapSum f (energy emin emax) n) := by
  induction n with
  | zero => rfl
  | succ n ih => rw [sumSteps, ih]; rfl

theorem flux_of_ok (f : ℝ → Res ℝ) (emin emax s : ℝ) (h : sumSteps f emin emax nsteps = .ok s) :
    flux f emin emax = .ok s := by
  unfold flux
  rw [h]

theorem flux_of_throws (f : ℝ → Res ℝ) (emin emax : ℝ) (h : sumSteps f emin emax nsteps = .throws) :
    flux f emin emax = .ok 1 := by
  unfold flux
  rw [h]

theorem flux_ok (f : ℝ → ℝ) (emin emax : ℝ) :
    flux (fun x => .ok (f x)) emin emax = .ok (trapSum f (energy emin emax) nsteps) := by
  exact flux_of_ok _ _ _ _ (sumSteps_ok f emin emax nsteps)

theorem integral_affine (a b p q : ℝ) :
    ∫ x in a..b, (p + q * (x - a)) = p * (b - a) + q * (b - a) ^ 2 / 2 := by
  have h : ∀ x, HasDerivAt (fun x => p * (x - a) + q * (x - a) ^ 2 / 2) (p + q * (x - a)) x := by
    intro x
    have h1 : HasDerivAt (fun x => x - a) 1 x := (hasDerivAt_id x).sub_const a
    have := (h1.const_mul p).add (((h1.pow 2).const_mul q).div_const 2)
    refine (this.congr_deriv ?_).congr_of_eventuallyEq ?_
    · simp; ring
    · exact Filter.Eventually.of_forall (fun y => by simp)
  rw [integral_eq_sub_of_hasDerivAt (fun x _ => h x) (by
    apply Continuous.intervalIntegrable; fun_prop)]
  ring

/-- A convex function is under its chord, and its integral under the trapezium. -/
theorem integral_le_trap {f : ℝ → ℝ} {a b : ℝ} (hab : a ≤ b) (hf : ConvexOn ℝ (Set.Icc a b) f)
    (hc : ContinuousOn f (Set.Icc a b)) :
    ∫ x in a..b, f x ≤ 1 / 2 * (f a + f b) * (b - a) := by
  rcases eq_or_lt_of_le hab with rfl | hlt
  · simp
  have hint : IntervalIntegrable f volume a b :=
    ContinuousOn.intervalIntegrable (by rwa [Set.uIcc_of_le hab])
  have hpt : ∀ x ∈ Set.Icc a b, f x ≤ f a + (f b - f a) / (b - a) * (x - a) := by
    intro x hx
    have hba : 0 < b - a := by linarith
    have h := hf.2 (Set.left_mem_Icc.2 hab) (Set.right_mem_Icc.2 hab)
      (show 0 ≤ (b - x) / (b - a) from div_nonneg (by linarith [hx.2]) hba.le)
      (show 0 ≤ (x - a) / (b - a) from div_nonneg (by linarith [hx.1]) hba.le)
      (by field_simp; ring)
    have hx' : (b - x) / (b - a) * a + (x - a) / (b - a) * b = x := by field_simp; ring
    simp only [smul_eq_mul] at h
    rw [hx'] at h
    calc f x ≤ _ := h
      _ = _ := by field_simp; ring
  calc ∫ x in a..b, f x ≤ ∫ x in a..b, (f a + (f b - f a) / (b - a) * (x - a)) :=
        integral_mono_on hab hint (by apply Continuous.intervalIntegrable; fun_prop) hpt
    _ = _ := by
      rw [integral_affine]
      have : b - a ≠ 0 := by linarith
      field_simp
      ring

theorem trap_le_integral {f : ℝ → ℝ} {a b c : ℝ} (hab : a ≤ b) (hc : ContinuousOn f (Set.Icc a b))
    (hdec : ∀ x ∈ Set.Icc a b, f b ≤ f x) (hba : f b ≤ f a) (hr : f a ≤ c * f b) (h0 : 0 ≤ c) :
    1 / 2 * (f a + f b) * (b - a) ≤ c * ∫ x in a..b, f x := by
  have hint : IntervalIntegrable f volume a b :=
    ContinuousOn.intervalIntegrable (by rwa [Set.uIcc_of_le hab])
  have h1 : f b * (b - a) ≤ ∫ x in a..b, f x := by
    calc f b * (b - a) = ∫ _ in a..b, f b := by rw [intervalIntegral.integral_const, smul_eq_mul]; ring
      _ ≤ _ := integral_mono_on hab (by simp) hint hdec
  have h2 : 1 / 2 * (f a + f b) * (b - a) ≤ c * f b * (b - a) :=
    mul_le_mul_of_nonneg_right (by linarith) (by linarith)
  nlinarith

/-- **C78** (partial).  For a spectrum that is convex and falls (every power law does) the flux in
the file is not less than the integral of the spectrum over the energy range, and exceeds it at
most by the factor by which the spectrum falls over one of the 100 steps.

Missing: it is not the integral itself, and the spectrum in the file is not that of the source
(`C78_shape_violates`). -/
theorem C78_flux_partial (f : ℝ → ℝ) (emin emax c : ℝ) (h1 : 0 < emin) (h : emin ≤ emax)
    (hconv : ConvexOn ℝ (Set.Icc emin emax) f) (hcont : ContinuousOn f (Set.Icc emin emax))
    (hdec : AntitoneOn f (Set.Icc emin emax)) (hc : 0 ≤ c)
    (hfall : ∀ x, emin ≤ x → ratio emin emax * x ≤ emax → f x ≤ c * f (ratio emin emax * x)) :
    ∃ F, flux (fun x => .ok (f x)) emin emax = .ok F ∧
      ∫ x in emin..emax, f x ≤ F ∧ F ≤ c * ∫ x in emin..emax, f x := by
  refine ⟨_, flux_ok f emin emax, ?_⟩
  have hpos := h1.trans_le h
  have key : ∀ n ≤ nsteps,
      (∫ x in emin..energy emin emax n, f x) ≤ trapSum f (energy emin emax) n ∧
      trapSum f (energy emin emax) n ≤ c * ∫ x in emin..energy emin emax n, f x := by
    intro n
    induction n with
    | zero =>
      intro _
      rw [energy_zero h1]
      simp [trapSum]
    | succ n ih =>
      intro hn
      obtain ⟨ih1, ih2⟩ := ih (by omega)
      have hm1 := energy_mem h1 h (show n ≤ nsteps by omega)
      have hm2 := energy_mem h1 h hn
      have hle := energy_le_succ h1 h n
      have hsub : Set.Icc (energy emin emax n) (energy emin emax (n + 1)) ⊆ Set.Icc emin emax :=
        Set.Icc_subset_Icc hm1.1 hm2.2
      have hi1 : IntervalIntegrable f volume emin (energy emin emax n) :=
        ContinuousOn.intervalIntegrable (by
          rw [Set.uIcc_of_le hm1.1]; exact hcont.mono (Set.Icc_subset_Icc le_rfl hm1.2))
      have hi2 : IntervalIntegrable f volume (energy emin emax n) (energy emin emax (n + 1)) :=
        ContinuousOn.intervalIntegrable (by rw [Set.uIcc_of_le hle]; exact hcont.mono hsub)
      have hadd := integral_add_adjacent_intervals hi1 hi2
      have hlow := integral_le_trap hle (hconv.subset hsub (convex_Icc _ _)) (hcont.mono hsub)
      have hup := trap_le_integral (c := c) hle (hcont.mono hsub)
        (fun x hx => hdec (hsub hx) hm2 hx.2) (hdec hm1 hm2 hle)
        (by
          have := hfall (energy emin emax n) hm1.1
          rw [← energy_succ h1 hpos] at this
          exact this hm2.2) hc
      rw [← hadd, trapSum]
      constructor
      · linarith
      · linarith
  have := key nsteps le_rfl
  rw [energy_last emin hpos] at this
  exact this

/-- A power law meets the conditions, here with index 1. -/
example : ∃ F, flux (fun x => .ok (x⁻¹)) 1 2 = .ok F ∧
    ∫ x in (1:ℝ)..2, x⁻¹ ≤ F ∧ F ≤ ratio 1 2 * ∫ x in (1:ℝ)..2, x⁻¹ := by
  have hr := one_le_ratio (show (0:ℝ) < 1 by norm_num) (show (1:ℝ) ≤ 2 by norm_num)
  apply C78_flux_partial (fun x => x⁻¹) 1 2 (ratio 1 2) (by norm_num) (by norm_num)
  · refine ⟨convex_Icc _ _, ?_⟩
    intro x hx y hy a b ha hb hab
    have hx0 : 0 < x := by linarith [hx.1]
    have hy0 : 0 < y := by linarith [hy.1]
    have hb' : b = 1 - a := by linarith
    subst hb'
    simp only [smul_eq_mul]
    have hp : 0 < a * x + (1 - a) * y := by
      rcases eq_or_lt_of_le ha with rfl | ha
      · simpa using hy0
      · have := mul_pos ha hx0
        have := mul_nonneg hb hy0.le
        linarith
    rw [inv_eq_one_div, div_le_iff₀ hp]
    have : (a * x⁻¹ + (1 - a) * y⁻¹) * (a * x + (1 - a) * y) - 1 =
        a * (1 - a) * (x - y) ^ 2 / (x * y) := by
      field_simp
      ring
    have h2 : 0 ≤ a * (1 - a) * (x - y) ^ 2 / (x * y) := by positivity
    linarith
  · exact continuousOn_inv₀.mono (fun x hx => by
      have : (1:ℝ) ≤ x := hx.1
      exact (show x ≠ 0 by linarith))
  · intro x hx y hy hxy
    have : (1:ℝ) ≤ x := hx.1
    exact inv_anti₀ (by linarith) hxy
  · linarith
  · intro x hx _
    have : ratio 1 2 * (ratio 1 2 * x)⁻¹ = x⁻¹ := by
      field_simp
    exact this.ge

theorem trapSum_mul (f : ℝ → ℝ) (e : ℕ → ℝ) (c : ℝ) (n : ℕ) :
    trapSum (fun x => c * f x) e n = c * trapSum f e n := by
  induction n with
  | zero => simp [trapSum]
  | succ n ih => rw [trapSum, trapSum, ih]; ring

theorem trapSum_pos {f : ℝ → ℝ} {emin emax : ℝ} (h1 : 0 < emin) (h : emin < emax)
    (hf : ∀ x, 0 < x → 0 < f x) : ∀ n, 0 < n → 0 < trapSum f (energy emin emax) n
  | 0, h => absurd h (lt_irrefl _)
  | n + 1, _ => by
    have hr : 1 < ratio emin emax := by
      unfold ratio
      exact Real.one_lt_rpow ((one_lt_div h1).2 h) (by norm_num)
    have hp := energy_pos emin emax n
    have hlt : energy emin emax n < energy emin emax (n + 1) := by
      rw [energy_succ h1 (h1.trans h)]
      nlinarith
    have hstep : 0 < 1 / 2 * (f (energy emin emax n) + f (energy emin emax (n + 1))) *
        (energy emin emax (n + 1) - energy emin emax n) := by
      have := hf _ hp
      have := hf _ (energy_pos emin emax (n + 1))
      have : 0 < energy emin emax (n + 1) - energy emin emax n := by linarith
      positivity
    rw [trapSum]
    rcases Nat.eq_zero_or_pos n with rfl | hn
    · rw [trapSum]; linarith
    · have := trapSum_pos h1 h hf n hn
      linarith

/-- **C78**, violated.  The file does not have the spectrum of the source: for every source, with
whatever spectrum, there is a source with a spectrum that falls with the second power of the
energy which is written in exactly the same way. -/
theorem C78_shape_violates (fmt : ℝ → String) (emin emax : ℝ) (h1 : 0 < emin) (h : emin < emax)
    (name : String) (pos : Option (ℝ × ℝ)) (f : ℝ → ℝ) :
    ∃ c : ℝ, sourceNode fmt emin emax ⟨name, fun x => .ok (f x), pos⟩ =
      sourceNode fmt emin emax ⟨name, fun x => .ok (c * x⁻¹ ^ 2), pos⟩ := by
  have hp : 0 < trapSum (fun x => x⁻¹ ^ 2) (energy emin emax) nsteps :=
    trapSum_pos h1 h (fun x hx => by positivity) _ (by unfold nsteps; norm_num)
  refine ⟨trapSum f (energy emin emax) nsteps /
    trapSum (fun x => x⁻¹ ^ 2) (energy emin emax) nsteps, ?_⟩
  unfold sourceNode
  simp only [flux_ok]
  rw [trapSum_mul, div_mul_cancel₀ _ hp.ne']

example : (0 : ℝ) < 30 ∧ (30 : ℝ) < 200000 := by norm_num

/-- **C78**.  The element of a source has its name, its flux, and its position if and only if it
has one, and the energy range of the file. -/
theorem C78_element (fmt : ℝ → String) (emin emax : ℝ) (s : Source) (n : Node)
    (h : sourceNode fmt emin emax s = .ok n) :
    n.tag = "source" ∧ n.attrs.lookup "name" = some s.name ∧
    (∃ F, flux s.spectrum emin emax = .ok F ∧ n.attrs.lookup "flux" = some (fmt F)) ∧
    (n.kids.any (fun k => k.tag == "celestial_dir") = s.position.isSome) ∧
    (∀ p, s.position = some p → ∃ k ∈ n.kids, k.tag = "celestial_dir" ∧
      k.attrs.lookup "ra" = some (fmt p.1) ∧ k.attrs.lookup "dec" = some (fmt p.2)) ∧
    ∃ k ∈ n.kids, k.tag = "spectrum" ∧
      (∃ q ∈ k.kids, q.attrs.lookup "name" = some "emin" ∧ q.attrs.lookup "value" = some (fmt emin)) ∧
      (∃ q ∈ k.kids, q.attrs.lookup "name" = some "emax" ∧ q.attrs.lookup "value" = some (fmt emax)) := by
  unfold sourceNode at h
  obtain ⟨F, hF, h⟩ := Res.bind_eq_ok.1 h
  cases h
  refine ⟨rfl, rfl, ⟨F, hF, rfl⟩, ?_, ?_, ?_⟩
  · cases s.position <;> simp [Node.kids, Node.tag, spectrumNode]
  · intro p hp
    rw [hp]
    exact ⟨.mk "celestial_dir" [("ra", fmt p.1), ("dec", fmt p.2)] [], by simp [Node.kids], rfl, rfl, rfl⟩
  · exact ⟨spectrumNode fmt emin emax, by simp [Node.kids], rfl,
      ⟨.mk "particle" [("name", "emin"), ("value", fmt emin)] [], by simp [spectrumNode, Node.kids],
        rfl, rfl⟩,
      ⟨.mk "particle" [("name", "emax"), ("value", fmt emax)] [], by simp [spectrumNode, Node.kids],
        rfl, rfl⟩⟩

example : ∃ n, sourceNode (fun _ => "x") 1 2 ⟨"vela", fun x => .ok x, some (1, 2)⟩ = .ok n := by
  unfold sourceNode
  simp only [flux_ok (fun x => x), Res.bind_ok, Res.pure_eq]
  exact ⟨_, rfl⟩

theorem sumSteps_throws (f : ℝ → Res ℝ) (emin emax : ℝ) (hub : ∀ x, f x ≠ .ub) (i : ℕ)
    (hi : f (energy emin emax i) = .throws) : ∀ n, i < n → sumSteps f emin emax n = .throws := by
  have noub : ∀ n, sumSteps f emin emax n ≠ .ub := by
    intro n
    induction n with
    | zero => intro h; cases h
    | succ n ih =>
      rw [sumSteps]
      cases hs : sumSteps f emin emax n with
      | ub => exact (ih hs).elim
      | throws => intro h; cases h
      | ok s =>
        cases h1 : f (energy emin emax n) with
        | ub => exact (hub _ h1).elim
        | throws => intro h; cases h
        | ok a =>
          cases h2 : f (energy emin emax (n + 1)) with
          | ub => exact (hub _ h2).elim
          | throws => intro h; cases h
          | ok b => intro h; cases h
  intro n
  induction n with
  | zero => intro h; omega
  | succ n ih =>
    intro hn
    rw [sumSteps]
    rcases Nat.lt_succ_iff_lt_or_eq.1 hn with hlt | rfl
    · rw [ih hlt]; rfl
    · cases hs : sumSteps f emin emax i with
      | ub => exact (noub i hs).elim
      | throws => rfl
      | ok s => rw [hi]; rfl

/-- **C78**, violated.  If the spectrum throws at one of the energies, whatever it is elsewhere,
no error is reported and the flux in the file is 1. -/
theorem C78_thrown_violates (f : ℝ → Res ℝ) (emin emax : ℝ) (hub : ∀ x, f x ≠ .ub) (i : ℕ)
    (hi : i < 100) (h : f (energy emin emax i) = .throws) : flux f emin emax = .ok 1 := by
  exact flux_of_throws f emin emax (sumSteps_throws f emin emax hub i h nsteps hi)

example : ∃ f : ℝ → Res ℝ, (∀ x, f x ≠ .ub) ∧ f (energy 1 2 0) = .throws :=
  ⟨fun _ => .throws, fun _ h => (by cases h), rfl⟩

end Verif.FluxFile
