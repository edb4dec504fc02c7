import Verif.Spectra.Props4
import Verif.PowerLaws.Lemmas
set_option linter.unusedSimpArgs false
set_option linter.unusedVariables false
set_option linter.unnecessarySeqFocus false
/-
C51: spectra defined by pieces have no jumps.
-/
namespace Verif.Spectra
open Verif.PowerLaws (continuousAt_if)

/-- The power law with an exponential cutoff above a threshold is continuous, also at the
threshold. -/
theorem C51_expCutoff {p : Pars} {x : ℝ} (hx : 0 < x) (hs : 0 < (p 2).tv) (hb : 0 < (p 3).tv) :
    ContinuousAt (ExpCutoff.value p) x := by
  have hp : 0 < x / (p 2).tv := div_pos hx hs
  have hq : x / (p 3).tv ≠ 0 := (div_pos hx hb).ne'
  have c1 : ContinuousAt (fun t : ℝ => (p 0).tv * (t / (p 2).tv) ^ (p 1).tv) x :=
    ((powc (p 1).tv ((idd x).div_const (p 2).tv) hp).const_mul (p 0).tv).continuousAt
  have c2 : ContinuousAt (fun t : ℝ => Real.log (t / (p 3).tv)) x :=
    ContinuousAt.log (continuousAt_id.div_const _) hq
  have c3 : ContinuousAt (fun t : ℝ => Real.exp (-((t - (p 3).tv) / (p 4).tv + (p 5).tv * Real.log (t / (p 3).tv) +
      (p 6).tv * Real.log (t / (p 3).tv) * Real.log (t / (p 3).tv)))) x := by
    refine Real.continuous_exp.continuousAt.comp ?_
    refine ContinuousAt.neg ?_
    exact ((((continuousAt_id.sub continuousAt_const).div_const _).add (continuousAt_const.mul c2)).add
      ((continuousAt_const.mul c2).mul c2))
  refine continuousAt_if (fun _ => c1) (fun _ => c1.mul c3) ?_
  intro h
  subst h
  simp [div_self hb.ne']

example : ContinuousAt (ExpCutoff.value (fun i => ⟨[3, -2, 100, 300, 50, 1, 2].getD i 0, 1⟩)) 300 :=
  C51_expCutoff (by norm_num) (by norm_num [P.tv]) (by norm_num [P.tv])

/-- The Band function is continuous in energy, in either order of its indices. -/
theorem C51_band {p : Pars} {x : ℝ} (hx : 0 < x) (hS : 0 < (p 4).tv) (hE : 0 < (p 3).tv) :
    ContinuousAt (Band.value p) x := by
  have hen : 0 < x / (p 4).tv := div_pos hx hS
  have hep : 0 < (p 3).tv / (p 4).tv := div_pos hE hS
  have cp : ∀ e : ℝ, ContinuousAt (fun t : ℝ => (p 0).tv * (t / (p 4).tv) ^ e) x := fun e =>
    ((powc e ((idd x).div_const (p 4).tv) hen).const_mul (p 0).tv).continuousAt
  by_cases hab : (p 1).tv ≤ (p 2).tv
  · have : Band.value p = fun t => (p 0).tv * (t / (p 4).tv) ^ (p 2).tv := by
      funext t
      simp only [Band.value, if_pos hab]
    rw [this]
    exact cp _
  · have hab' := not_le.mp hab
    have : Band.value p = fun t => if t < (p 4).tv * ((p 3).tv / (p 4).tv * ((p 1).tv - (p 2).tv)) then
        (p 0).tv * (t / (p 4).tv) ^ (p 1).tv * Real.exp (-(t / (p 4).tv) / ((p 3).tv / (p 4).tv)) else
        (p 0).tv * (t / (p 4).tv) ^ (p 2).tv * ((p 3).tv / (p 4).tv * ((p 1).tv - (p 2).tv)) ^ ((p 1).tv - (p 2).tv) *
          Real.exp ((p 2).tv - (p 1).tv) := by
      funext t
      simp only [Band.value, if_neg hab, div_lt_iff₀' hS]
    rw [this]
    refine continuousAt_if (fun _ => ?_) (fun _ => ?_) ?_
    · refine (cp _).mul (Real.continuous_exp.continuousAt.comp ?_)
      exact ((continuousAt_id.div_const _).neg).div_const _
    · exact ((cp _).mul continuousAt_const).mul continuousAt_const
    · intro h
      have := band_meet (E := x / (p 4).tv) hep hab' (by rw [h]; field_simp)
      rw [mul_assoc, this]; ring

example : ContinuousAt (Band.value (fun i => ⟨[3, -1, -2, 300, 100].getD i 0, 1⟩)) 300 :=
  C51_band (by norm_num) (by norm_num [P.tv]) (by norm_num [P.tv])

/-- A function that follows another one on the left of a point, but has another value there. -/
theorem jump {f g : ℝ → ℝ} {x : ℝ} (hfg : ∀ᶠ t in nhdsWithin x (Set.Iio x), f t = g t) (hg : ContinuousAt g x)
    (hne : f x ≠ g x) : ¬ ContinuousAt f x := by
  intro hc
  have h1 : Filter.Tendsto f (nhdsWithin x (Set.Iio x)) (nhds (f x)) := hc.tendsto.mono_left nhdsWithin_le_nhds
  have h2 : Filter.Tendsto g (nhdsWithin x (Set.Iio x)) (nhds (g x)) := hg.tendsto.mono_left nhdsWithin_le_nhds
  exact hne (tendsto_nhds_unique (h1.congr' hfg) h2)

/-- The broken power law with absorption jumps at its break, and at the onset of
absorption, unless its prefactor is zero. -/
theorem C51_bplExp_jump_violates {p : Pars} {x : ℝ} (h : x = (p 3).tv ∨ x = (p 4).tv) (hN : (p 0).tv ≠ 0)
    (h3 : 0 < (p 3).tv) (hx : 0 < x) : ¬ ContinuousAt (BplExp.value p) x := by
  have h0 := C51_bplExp_violates h
  have hp : 0 < x / (p 3).tv := div_pos hx h3
  have cp : ∀ e : ℝ, ContinuousAt (fun t : ℝ => (p 0).tv * (t / (p 3).tv) ^ e) x := fun e =>
    ((powc e ((idd x).div_const (p 3).tv) hp).const_mul (p 0).tv).continuousAt
  have np : ∀ e : ℝ, (p 0).tv * (x / (p 3).tv) ^ e ≠ 0 := fun e => mul_ne_zero hN (Real.rpow_pos_of_pos hp e).ne'
  have lt : ∀ᶠ t in nhdsWithin x (Set.Iio x), t < x := eventually_nhdsWithin_of_forall fun t ht => ht
  have gt : ∀ a, a < x → ∀ᶠ t in nhdsWithin x (Set.Iio x), a < t := fun a ha =>
    nhdsWithin_le_nhds (eventually_gt_nhds ha)
  by_cases hA : x ≤ (p 3).tv ∧ x ≤ (p 4).tv
  · refine jump (g := fun t => (p 0).tv * (t / (p 3).tv) ^ (p 1).tv) ?_ (cp _) (by rw [h0]; exact (np _).symm)
    filter_upwards [lt] with t ht
    simp only [BplExp.value]
    rw [if_pos ⟨ht.trans_le hA.1, ht.trans_le hA.2⟩]
  · rcases h with h | h
    · have h4 : (p 4).tv < x := by
        by_contra hc
        exact hA ⟨h.le, not_lt.mp hc⟩
      refine jump (g := fun t => (p 0).tv * (t / (p 3).tv) ^ (p 1).tv * Real.exp (-((t - (p 4).tv) / (p 5).tv))) ?_
        ((cp _).mul (Real.continuous_exp.continuousAt.comp
          (((continuousAt_id.sub continuousAt_const).div_const _).neg))) ?_
      · filter_upwards [lt, gt _ h4] with t ht hg
        simp only [BplExp.value]
        rw [if_neg (fun hh => absurd hg (not_lt.mpr hh.2.le)), if_neg (fun hh => absurd hg (not_lt.mpr hh.2.le)),
          if_pos ⟨ht.trans_le h.le, hg⟩]
      · rw [h0]
        exact (mul_ne_zero (np _) (Real.exp_pos _).ne').symm
    · have h4 : (p 3).tv < x := by
        by_contra hc
        exact hA ⟨not_lt.mp hc, h.le⟩
      refine jump (g := fun t => (p 0).tv * (t / (p 3).tv) ^ (p 2).tv) ?_ (cp _) (by rw [h0]; exact (np _).symm)
      filter_upwards [lt, gt _ h4] with t ht hg
      simp only [BplExp.value]
      rw [if_neg (fun hh => absurd hg (not_lt.mpr hh.1.le)), if_pos ⟨hg, ht.trans_le h.le⟩]

example : ¬ ContinuousAt (BplExp.value (fun i => ⟨[3, -1, -2, 300, 200, 50].getD i 0, 1⟩)) 300 :=
  C51_bplExp_jump_violates (by norm_num [P.tv]) (by norm_num [P.tv]) (by norm_num [P.tv]) (by norm_num)

example : ¬ ContinuousAt (BplExp.value (fun i => ⟨[3, -1, -2, 300, 400, 50].getD i 0, 1⟩)) 400 :=
  C51_bplExp_jump_violates (by norm_num [P.tv]) (by norm_num [P.tv]) (by norm_num [P.tv]) (by norm_num)

/-- At every other energy it is continuous. -/
theorem C51_bplExp_partial {p : Pars} {x : ℝ} (ha : x ≠ (p 3).tv) (hb : x ≠ (p 4).tv) (h3 : 0 < (p 3).tv) (hx : 0 < x) :
    ContinuousAt (BplExp.value p) x := by
  have hp : 0 < x / (p 3).tv := div_pos hx h3
  have cp : ∀ e : ℝ, ContinuousAt (fun t : ℝ => (p 0).tv * (t / (p 3).tv) ^ e) x := fun e =>
    ((powc e ((idd x).div_const (p 3).tv) hp).const_mul (p 0).tv).continuousAt
  have ce : ContinuousAt (fun t : ℝ => Real.exp (-((t - (p 4).tv) / (p 5).tv))) x :=
    Real.continuous_exp.continuousAt.comp (((continuousAt_id.sub continuousAt_const).div_const _).neg)
  rcases lt_or_gt_of_ne ha with h1 | h1 <;> rcases lt_or_gt_of_ne hb with h2 | h2
  · refine (cp (p 1).tv).congr ?_
    filter_upwards [eventually_lt_nhds h1, eventually_lt_nhds h2] with t h5 h6
    simp only [BplExp.value]
    rw [if_pos ⟨h5, h6⟩]
  · refine ((cp (p 1).tv).mul ce).congr ?_
    filter_upwards [eventually_lt_nhds h1, eventually_gt_nhds h2] with t h5 h6
    simp only [BplExp.value]
    rw [if_neg (fun hh => absurd h6 (not_lt.mpr hh.2.le)), if_neg (fun hh => absurd h6 (not_lt.mpr hh.2.le)),
      if_pos ⟨h5, h6⟩]
    rfl
  · refine (cp (p 2).tv).congr ?_
    filter_upwards [eventually_gt_nhds h1, eventually_lt_nhds h2] with t h5 h6
    simp only [BplExp.value]
    rw [if_neg (fun hh => absurd h5 (not_lt.mpr hh.1.le)), if_pos ⟨h5, h6⟩]
  · refine ((cp (p 2).tv).mul ce).congr ?_
    filter_upwards [eventually_gt_nhds h1, eventually_gt_nhds h2] with t h5 h6
    simp only [BplExp.value]
    rw [if_neg (fun hh => absurd h5 (not_lt.mpr hh.1.le)), if_neg (fun hh => absurd h6 (not_lt.mpr hh.2.le)),
      if_neg (fun hh => absurd h5 (not_lt.mpr hh.1.le)), if_pos ⟨h5, h6⟩]
    rfl

example : ContinuousAt (BplExp.value (fun i => ⟨[3, -1, -2, 300, 200, 50].getD i 0, 1⟩)) 250 :=
  C51_bplExp_partial (by norm_num [P.tv]) (by norm_num [P.tv]) (by norm_num [P.tv]) (by norm_num)

/-! `PowerLawSuperExpCutoff4` -/

theorem sec4_small_cont {p : Pars} {x : ℝ} (hx : 0 < x) (hs : 0 < (p 2).tv) :
    ContinuousAt (fun t => (p 0).tv * Real.exp (Sec4.small p t)) x := by
  have cl : ContinuousAt (fun t : ℝ => Real.log (t / (p 2).tv)) x :=
    ContinuousAt.log (continuousAt_id.div_const _) (div_pos hx hs).ne'
  refine continuousAt_const.mul (Real.continuous_exp.continuousAt.comp ?_)
  unfold Sec4.small
  exact cl.mul (continuousAt_const.sub (((continuousAt_const.mul cl).div_const _).mul (continuousAt_const.add
    (((continuousAt_const.mul cl).div_const _).mul (continuousAt_const.add ((continuousAt_const.mul cl).div_const _))))))

theorem sec4_large_cont {p : Pars} {x : ℝ} (hx : 0 < x) (hs : 0 < (p 2).tv) :
    ContinuousAt (fun t => (p 0).tv * Real.exp (min (Sec4.large p t) maxExp)) x := by
  have cl : ContinuousAt (fun t : ℝ => Real.log (t / (p 2).tv)) x :=
    ContinuousAt.log (continuousAt_id.div_const _) (div_pos hx hs).ne'
  refine continuousAt_const.mul (Real.continuous_exp.continuousAt.comp (Filter.Tendsto.min ?_ tendsto_const_nhds))
  unfold Sec4.large
  exact ContinuousAt.add (continuousAt_const.mul cl) (continuousAt_const.mul (continuousAt_const.sub
    (Real.continuous_exp.continuousAt.comp (continuousAt_const.mul cl))))

/-- Away from the two energies where the formula changes the function is continuous. -/
theorem C51_sec4_partial {p : Pars} {x : ℝ} (hx : 0 < x) (hs : 0 < (p 2).tv)
    (hy : |(p 4).tv * Real.log (x / (p 2).tv)| ≠ 1 / 100) : ContinuousAt (Sec4.value p) x := by
  have cl : ContinuousAt (fun t : ℝ => |(p 4).tv * Real.log (t / (p 2).tv)|) x :=
    (continuousAt_const.mul (ContinuousAt.log (continuousAt_id.div_const _) (div_pos hx hs).ne')).abs
  rcases lt_or_gt_of_ne hy with h | h
  · refine (sec4_small_cont hx hs).congr ?_
    filter_upwards [cl.eventually_lt continuousAt_const h] with t ht
    simp only [Sec4.value]
    rw [if_pos ht]
  · refine (sec4_large_cont hx hs).congr ?_
    filter_upwards [continuousAt_const.eventually_lt cl h] with t ht
    simp only [Sec4.value]
    rw [if_neg (not_lt.mpr ht.le)]

example : ContinuousAt (Sec4.value (fun i => ⟨[3, -2, 1000, 1, 2 / 3].getD i 0, 1⟩)) 1000 :=
  C51_sec4_partial (by norm_num) (by norm_num [P.tv]) (by norm_num [P.tv])

/-- The energy at which it switches from the truncated series to the closed form: a jump, as
the series stops after the fourth power. -/
theorem C51_sec4_violates {p : Pars} {x : ℝ} (hx : 0 < x) (hs : 0 < (p 2).tv) (hN : (p 0).tv ≠ 0) (hE : (p 3).tv ≠ 0)
    (hI : 0 < (p 4).tv) (hy : (p 4).tv * Real.log (x / (p 2).tv) = 1 / 100) (hm : Sec4.large p x ≤ maxExp) :
    ¬ ContinuousAt (Sec4.value p) x := by
  have cl : ContinuousAt (fun t : ℝ => (p 4).tv * Real.log (t / (p 2).tv)) x :=
    continuousAt_const.mul (ContinuousAt.log (continuousAt_id.div_const _) (div_pos hx hs).ne')
  refine jump (g := fun t => (p 0).tv * Real.exp (Sec4.small p t)) ?_ (sec4_small_cont hx hs) ?_
  · have hneg : -(1 / 100 : ℝ) < (p 4).tv * Real.log (x / (p 2).tv) := by rw [hy]; norm_num
    filter_upwards [nhdsWithin_le_nhds (continuousAt_const.eventually_lt cl hneg),
      nhdsWithin_le_nhds (eventually_gt_nhds hx), eventually_nhdsWithin_of_forall fun t ht => ht] with t h1 h2 h3
    have h4 : (p 4).tv * Real.log (t / (p 2).tv) < 1 / 100 := by
      rw [← hy]
      exact mul_lt_mul_of_pos_left (Real.log_lt_log (div_pos h2 hs) (div_lt_div_of_pos_right h3 hs)) hI
    simp only [Sec4.value]
    rw [if_pos (abs_lt.mpr ⟨h1, h4⟩)]
  · have h1 : Sec4.value p x = (p 0).tv * Real.exp (Sec4.large p x) := by
      simp only [Sec4.value]
      rw [if_neg (by rw [hy]; norm_num), min_eq_left hm]
    rw [h1]
    intro h
    have h2 := Real.exp_injective (mul_left_cancel₀ hN h)
    have hl : Real.log (x / (p 2).tv) = 1 / 100 / (p 4).tv := by
      rw [← hy]; field_simp
    simp only [Sec4.large, Sec4.small] at h2
    rw [hl] at h2
    have h3 : (p 4).tv * (1 / 100 / (p 4).tv) = 1 / 100 := by field_simp
    rw [h3] at h2
    have h5 := Real.sum_le_exp_of_nonneg (x := 1 / 100) (by norm_num) 6
    simp_rw [Finset.sum_range_succ, Nat.factorial_succ] at h5
    norm_num at h5
    generalize Real.exp (1 / 100) = e at *
    have h6 : (p 3).tv * (1 + 1 / 100 + 1 / 20000 + 1 / 6000000 + 1 / 2400000000 - e) = 0 := by
      field_simp at h2
      linear_combination 1 / 2400000000 * h2
    rcases mul_eq_zero.mp h6 with h7 | h7
    · exact hE h7
    · linarith

example : ¬ ContinuousAt (Sec4.value (fun i => ⟨[3, -2, 1, 1, 1 / 100].getD i 0, 1⟩)) (Real.exp 1) := by
  refine C51_sec4_violates (Real.exp_pos _) (by norm_num [P.tv]) (by norm_num [P.tv]) (by norm_num [P.tv])
    (by norm_num [P.tv]) (by norm_num [P.tv]) ?_
  have h1 := Real.add_one_le_exp (1 / 100)
  have h2 : 0 ≤ maxExp := Real.log_nonneg (by norm_num)
  norm_num [Sec4.large, P.tv] at *
  linarith

end Verif.Spectra
