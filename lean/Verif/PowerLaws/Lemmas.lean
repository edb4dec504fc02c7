import Verif.PowerLaws.Model
import Verif.PowerLaws.Spec
import Verif.Spectra.Lemmas
import Mathlib.Analysis.SpecialFunctions.Integrals.Basic
set_option linter.unusedSimpArgs false
set_option linter.unusedVariables false
set_option linter.unnecessarySeqFocus false
/-
Integrals of power laws and of broken power laws.
-/
namespace Verif.PowerLaws
open Verif.Spectra

/-- Broken power law. -/
noncomputable def bpl (N x0 I1 I2 x : ℝ) : ℝ := if x < x0 then N * (x / x0) ^ I1 else N * (x / x0) ^ I2

/-- A primitive of the broken power law, zero at the break. -/
noncomputable def prim (N x0 I1 I2 x : ℝ) : ℝ :=
  if x < x0 then N * x0 * (((x / x0) ^ (1 + I1) - 1) / (1 + I1)) else N * x0 * (((x / x0) ^ (1 + I2) - 1) / (1 + I2))

theorem pow_one_add {y a : ℝ} (hy : 0 < y) : y ^ (1 + a) = y * y ^ a := by
  rw [Real.rpow_add hy, Real.rpow_one]

theorem prim_branch {x0 I x : ℝ} (N : ℝ) (h0 : 0 < x0) (hx : 0 < x) (hI : 1 + I ≠ 0) :
    HasDerivAt (fun x => N * x0 * (((x / x0) ^ (1 + I) - 1) / (1 + I))) (N * (x / x0) ^ I) x := by
  have hp : 0 < x / x0 := div_pos hx h0
  refine ((((powc (1 + I) ((idd x).div_const x0) hp).sub_const 1).div_const (1 + I)).const_mul (N * x0)).congr_deriv ?_
  rw [pow_one_add hp]
  field_simp

theorem prim_deriv {x0 I1 I2 x : ℝ} (N : ℝ) (h0 : 0 < x0) (hx : 0 < x) (h1 : 1 + I1 ≠ 0) (h2 : 1 + I2 ≠ 0) :
    HasDerivAt (prim N x0 I1 I2) (bpl N x0 I1 I2 x) x := by
  refine piece (idd x).continuousAt (hasDerivAt_const x x0).continuousAt (fun t => rfl) ?_ ?_ ?_
  · intro h
    refine (prim_branch N h0 hx h1).congr_deriv ?_
    unfold bpl
    split
    · rfl
    · have : x = x0 := le_antisymm h (not_lt.mp ‹_›)
      rw [this, div_self h0.ne', Real.one_rpow, Real.one_rpow]
  · intro h
    refine (prim_branch N h0 hx h2).congr_deriv ?_
    unfold bpl
    rw [if_neg (not_lt.mpr h)]
  · intro h
    rw [h, div_self h0.ne', Real.one_rpow, Real.one_rpow]; simp

theorem continuousAt_if {g h : ℝ → ℝ} {c x : ℝ} (hg : x ≤ c → ContinuousAt g x) (hh : c ≤ x → ContinuousAt h x)
    (he : x = c → g x = h x) : ContinuousAt (fun t => if t < c then g t else h t) x := by
  rcases lt_trichotomy x c with h1 | h1 | h1
  · refine (hg h1.le).congr ?_
    filter_upwards [eventually_lt_nhds h1] with t ht
    rw [if_pos ht]
  · have h2 := hg h1.le
    have h3 := hh h1.ge
    rw [Metric.continuousAt_iff] at *
    intro e hep
    obtain ⟨d1, p1, q1⟩ := h2 e hep
    obtain ⟨d2, p2, q2⟩ := h3 e hep
    refine ⟨min d1 d2, lt_min p1 p2, fun {t} ht => ?_⟩
    rw [if_neg (not_lt.mpr h1.ge)]
    split
    · rw [← he h1]; exact q1 (lt_of_lt_of_le ht (min_le_left _ _))
    · exact q2 (lt_of_lt_of_le ht (min_le_right _ _))
  · refine (hh h1.le).congr ?_
    filter_upwards [eventually_gt_nhds h1] with t ht
    rw [if_neg (not_lt.mpr (le_of_lt ht))]

theorem bpl_continuousAt {N x0 I1 I2 x : ℝ} (h0 : 0 < x0) (hx : 0 < x) : ContinuousAt (bpl N x0 I1 I2) x := by
  have hp : 0 < x / x0 := div_pos hx h0
  refine continuousAt_if (fun _ => ?_) (fun _ => ?_) ?_
  · exact ((powc I1 ((idd x).div_const x0) hp).const_mul N).continuousAt
  · exact ((powc I2 ((idd x).div_const x0) hp).const_mul N).continuousAt
  · intro h
    rw [h, div_self h0.ne', Real.one_rpow, Real.one_rpow]

theorem pos_of_uIcc {a b t : ℝ} (ha : 0 < a) (hb : 0 < b) (ht : t ∈ Set.uIcc a b) : 0 < t :=
  lt_of_lt_of_le (lt_min ha hb) (Set.mem_Icc.mp ht).1

theorem bpl_integral {N x0 I1 I2 a b : ℝ} (h0 : 0 < x0) (ha : 0 < a) (hb : 0 < b) (h1 : 1 + I1 ≠ 0)
    (h2 : 1 + I2 ≠ 0) : ∫ x in a..b, bpl N x0 I1 I2 x = prim N x0 I1 I2 b - prim N x0 I1 I2 a := by
  refine intervalIntegral.integral_eq_sub_of_hasDerivAt (fun t ht => prim_deriv N h0 (pos_of_uIcc ha hb ht) h1 h2) ?_
  refine ContinuousOn.intervalIntegrable fun t ht => ?_
  exact (bpl_continuousAt h0 (pos_of_uIcc ha hb ht)).continuousWithinAt

/-- The integral of a power of the energy. -/
theorem int_pow {g a b : ℝ} (ha : 0 < a) (hb : 0 < b) (hg : g ≠ -1) :
    ∫ y in a..b, y ^ g = (b ^ (1 + g) - a ^ (1 + g)) / (1 + g) := by
  rw [integral_rpow (Or.inr ⟨hg, Set.notMem_uIcc_of_lt ha hb⟩), add_comm g 1]

theorem int_inv {a b : ℝ} (ha : 0 < a) (hb : 0 < b) : ∫ y in a..b, y ^ (-1 : ℝ) = Real.log b - Real.log a := by
  simp only [Real.rpow_neg_one]
  rw [integral_inv_of_pos ha hb, Real.log_div hb.ne' ha.ne']

theorem int_pos {g a b : ℝ} (ha : 0 < a) (hab : a < b) : 0 < ∫ y in a..b, y ^ g := by
  refine intervalIntegral.intervalIntegral_pos_of_pos_on ?_ (fun y hy => ?_) hab
  · refine ContinuousOn.intervalIntegrable fun t ht => ?_
    exact (Real.continuousAt_rpow_const _ _ (Or.inl (pos_of_uIcc ha (ha.trans hab) ht).ne')).continuousWithinAt
  · exact Real.rpow_pos_of_pos (ha.trans hy.1) _

theorem sub_pow_ne {s a b : ℝ} (ha : 0 < a) (hab : a < b) (hs : s ≠ 0) : b ^ s - a ^ s ≠ 0 := by
  intro h
  have h1 := Real.rpow_left_injOn hs (Set.mem_ofPred.mpr (ha.trans hab).le) (Set.mem_ofPred.mpr ha.le)
    (sub_eq_zero.mp h)
  exact hab.ne' h1

/-- A function within a multiple of the square of its linear approximation. -/
theorem deriv_of_sq {f : ℝ → ℝ} {d C : ℝ} (h : ∀ᶠ s in nhds 0, |f s - f 0 - s * d| ≤ C * s ^ 2) :
    HasDerivAt f d 0 := by
  rw [hasDerivAt_iff_isLittleO]
  have h1 : (fun s => f s - f 0 - (s - 0) • d) =O[nhds 0] fun s : ℝ => s ^ 2 := by
    refine Asymptotics.IsBigO.of_bound C ?_
    filter_upwards [h] with s hs
    rw [sub_zero, smul_eq_mul, Real.norm_eq_abs, Real.norm_eq_abs, abs_of_nonneg (sq_nonneg s)]
    exact hs
  refine h1.trans_isLittleO ?_
  simp only [sub_zero]
  exact Asymptotics.isLittleO_pow_id (by norm_num)

theorem exp_cubic {t : ℝ} (ht : |t| ≤ 1) : |Real.exp t - 1 - t - t ^ 2 / 2| ≤ |t| ^ 3 := by
  have h := Real.exp_bound ht (n := 3) (by norm_num)
  have e : ∑ m ∈ Finset.range 3, t ^ m / (m.factorial : ℝ) = 1 + t + t ^ 2 / 2 := by
    simp [Finset.sum_range_succ, Nat.factorial]
  rw [e] at h
  have h2 : Real.exp t - 1 - t - t ^ 2 / 2 = Real.exp t - (1 + t + t ^ 2 / 2) := by ring
  rw [h2]
  refine h.trans ?_
  have : (0:ℝ) ≤ |t| ^ 3 := by positivity
  norm_num [Nat.factorial]
  linarith

/-- Near index -1 the integral between two energies is smooth in the index. -/
theorem int_deriv_neg_one {a b : ℝ} (ha : 0 < a) (hb : 0 < b) :
    HasDerivAt (fun g : ℝ => ∫ y in a..b, y ^ g) ((Real.log b ^ 2 - Real.log a ^ 2) / 2) (-1) := by
  have key : HasDerivAt (fun s : ℝ => ∫ y in a..b, y ^ (-1 + s)) ((Real.log b ^ 2 - Real.log a ^ 2) / 2) 0 := by
    have bnd : ∀ {L : ℝ}, ∀ᶠ s in nhds (0 : ℝ), |s * L| ≤ 1 := by
      intro L
      have : Filter.Tendsto (fun s : ℝ => |s * L|) (nhds 0) (nhds |0 * L|) :=
        (continuous_id.mul continuous_const).abs.tendsto 0
      rw [zero_mul, abs_zero] at this
      exact (this.eventually_lt_const (by norm_num : (0:ℝ) < 1)).mono fun s h => h.le
    refine deriv_of_sq (C := |Real.log b| ^ 3 + |Real.log a| ^ 3) ?_
    filter_upwards [bnd (L := Real.log b), bnd (L := Real.log a)] with s h1 h2
    rw [add_zero, int_inv ha hb]
    by_cases hs : s = 0
    · subst hs
      simp only [add_zero]
      rw [int_inv ha hb]
      simp
    · rw [int_pow ha hb (by intro h; apply hs; linarith), show 1 + (-1 + s) = s by ring, Real.rpow_def_of_pos hb,
        Real.rpow_def_of_pos ha]
      have q1 := exp_cubic h1
      have q2 := exp_cubic h2
      have e : (Real.exp (Real.log b * s) - Real.exp (Real.log a * s)) / s - (Real.log b - Real.log a) -
          s * ((Real.log b ^ 2 - Real.log a ^ 2) / 2) =
          ((Real.exp (s * Real.log b) - 1 - s * Real.log b - (s * Real.log b) ^ 2 / 2) -
            (Real.exp (s * Real.log a) - 1 - s * Real.log a - (s * Real.log a) ^ 2 / 2)) / s := by
        rw [mul_comm (Real.log b) s, mul_comm (Real.log a) s]
        field_simp
        ring
      rw [e, abs_div, div_le_iff₀ (abs_pos.mpr hs)]
      refine (abs_sub _ _).trans ((add_le_add q1 q2).trans ?_)
      rw [abs_mul, abs_mul, ← sq_abs s]
      have : (0:ℝ) ≤ |s| := abs_nonneg s
      apply le_of_eq
      ring
  have h2 := HasDerivAt.comp (-1 : ℝ) (h₂ := fun s : ℝ => ∫ y in a..b, y ^ (-1 + s)) (h := fun g : ℝ => g + 1) (h' := 1)
    (h₂' := (Real.log b ^ 2 - Real.log a ^ 2) / 2) (by rw [show (-1 : ℝ) + 1 = 0 by ring]; exact key)
    ((idd _).add_const 1)
  rw [mul_one] at h2
  refine h2.congr_of_eventuallyEq (Filter.Eventually.of_forall fun g => ?_)
  simp only [Function.comp]
  rw [show -1 + (g + 1) = g by ring]

theorem int_deriv {a b g : ℝ} (ha : 0 < a) (hb : 0 < b) (hg : g ≠ -1) :
    HasDerivAt (fun g : ℝ => ∫ y in a..b, y ^ g) (((b ^ (1 + g) * Real.log b - a ^ (1 + g) * Real.log a) * (1 + g) -
      (b ^ (1 + g) - a ^ (1 + g))) / (1 + g) ^ 2) g := by
  have h1 : 1 + g ≠ 0 := fun h => hg (by linarith)
  have hs := (idd g).const_add 1
  refine (((cpow hb hs).fun_sub (cpow ha hs)).fun_div hs h1).congr_of_eventuallyEq ?_ |>.congr_deriv ?_
  · filter_upwards [isOpen_ne.mem_nhds hg] with t ht
    exact int_pow ha hb ht
  · ring

end Verif.PowerLaws
