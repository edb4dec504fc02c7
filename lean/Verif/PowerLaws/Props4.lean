import Verif.PowerLaws.Props3
set_option linter.unusedSimpArgs false
set_option linter.unusedVariables false
set_option linter.unnecessarySeqFocus false
/-
C50, C51, C52 for `BrokenPowerLaw3`.
-/
namespace Verif.PowerLaws
open Verif.Spectra

/-- The settings for which the function is meant: positive fluxes, increasing positive
limits, and indices that differ and are not -1. -/
structure Sane (p : Pars) : Prop where
  f1 : 0 < (p 0).tv
  f2 : 0 < (p 2).tv
  i1 : (p 1).tv ≠ -1
  i2 : (p 3).tv ≠ -1
  ne : (p 1).tv ≠ (p 3).tv
  lo1 : 0 < (p 4).tv
  hi1 : (p 4).tv < (p 5).tv
  lo2 : 0 < (p 6).tv
  hi2 : (p 6).tv < (p 7).tv

/-- Normalisation of a power law with a given integral. -/
noncomputable def nrm (F g lo hi : ℝ) : ℝ := F * (1 + g) / (hi ^ (1 + g) - lo ^ (1 + g))

theorem nrm_eq {F g lo hi : ℝ} (hlo : 0 < lo) (hhi : lo < hi) (hg : g ≠ -1) : nrm F g lo hi = F / ∫ y in lo..hi, y ^ g := by
  rw [int_pow hlo (hlo.trans hhi) hg, nrm, div_div_eq_mul_div]

theorem nrm_pos {F g lo hi : ℝ} (hF : 0 < F) (hlo : 0 < lo) (hhi : lo < hi) (hg : g ≠ -1) : 0 < nrm F g lo hi := by
  rw [nrm_eq hlo hhi hg]
  exact div_pos hF (int_pos hlo hhi)

theorem x0_base {p : Pars} (h : Sane p) : (p 0).tv / (p 2).tv * (1 + (p 1).tv) / (1 + (p 3).tv) *
    ((p 7).tv ^ (1 + (p 3).tv) - (p 6).tv ^ (1 + (p 3).tv)) / ((p 5).tv ^ (1 + (p 1).tv) - (p 4).tv ^ (1 + (p 1).tv)) =
    nrm (p 0).tv (p 1).tv (p 4).tv (p 5).tv / nrm (p 2).tv (p 3).tv (p 6).tv (p 7).tv := by
  have a' : 1 + (p 1).tv ≠ 0 := fun e => h.i1 (by linarith)
  have b' : 1 + (p 3).tv ≠ 0 := fun e => h.i2 (by linarith)
  have d1 := sub_pow_ne h.lo1 h.hi1 a'
  have d2 := sub_pow_ne h.lo2 h.hi2 b'
  have := h.f2.ne'
  unfold nrm
  field_simp

theorem x0_eq {p : Pars} (h : Sane p) : BPL3.x0 p = (nrm (p 0).tv (p 1).tv (p 4).tv (p 5).tv /
    nrm (p 2).tv (p 3).tv (p 6).tv (p 7).tv) ^ (1 / ((p 3).tv - (p 1).tv)) := by
  rw [← x0_base h]; rfl

theorem x0_pos {p : Pars} (h : Sane p) : 0 < BPL3.x0 p := by
  rw [x0_eq h]
  exact Real.rpow_pos_of_pos (div_pos (nrm_pos h.f1 h.lo1 h.hi1 h.i1) (nrm_pos h.f2 h.lo2 h.hi2 h.i2)) _

theorem N0_eq3 (p : Pars) (x0 : ℝ) : BPL3.N0 p x0 = nrm (p 0).tv (p 1).tv (p 4).tv (p 5).tv * x0 ^ (p 1).tv := by
  simp only [BPL3.N0, nrm]; ring

theorem low3 {p : Pars} (h : Sane p) {x : ℝ} (hx : 0 < x) :
    BPL3.N0 p (BPL3.x0 p) * (x / BPL3.x0 p) ^ (p 1).tv = nrm (p 0).tv (p 1).tv (p 4).tv (p 5).tv * x ^ (p 1).tv := by
  have h0 := x0_pos h
  rw [N0_eq3, Real.div_rpow hx.le h0.le]
  have := (Real.rpow_pos_of_pos h0 (p 1).tv).ne'
  field_simp

theorem high3 {p : Pars} (h : Sane p) {x : ℝ} (hx : 0 < x) :
    BPL3.N0 p (BPL3.x0 p) * (x / BPL3.x0 p) ^ (p 3).tv = nrm (p 2).tv (p 3).tv (p 6).tv (p 7).tv * x ^ (p 3).tv := by
  have h0 := x0_pos h
  have c1 := nrm_pos h.f1 h.lo1 h.hi1 h.i1
  have c2 := nrm_pos h.f2 h.lo2 h.hi2 h.i2
  have hne : (p 3).tv - (p 1).tv ≠ 0 := sub_ne_zero.mpr h.ne.symm
  have hr : BPL3.x0 p ^ ((p 3).tv - (p 1).tv) = nrm (p 0).tv (p 1).tv (p 4).tv (p 5).tv /
      nrm (p 2).tv (p 3).tv (p 6).tv (p 7).tv := by
    rw [x0_eq h, ← Real.rpow_mul (div_pos c1 c2).le, one_div, inv_mul_cancel₀ hne, Real.rpow_one]
  rw [Real.rpow_sub h0] at hr
  have e1 := (Real.rpow_pos_of_pos h0 (p 1).tv).ne'
  have e3 := (Real.rpow_pos_of_pos h0 (p 3).tv).ne'
  rw [N0_eq3, Real.div_rpow hx.le h0.le]
  have c1' := c1.ne'
  have c2' := c2.ne'
  generalize nrm (p 0).tv (p 1).tv (p 4).tv (p 5).tv = A at *
  generalize nrm (p 2).tv (p 3).tv (p 6).tv (p 7).tv = B at *
  rw [div_eq_div_iff e1 c2'] at hr
  field_simp
  linear_combination -hr

theorem bpl3_value (p : Pars) (x : ℝ) :
    BPL3.value p x = bpl (BPL3.N0 p (BPL3.x0 p)) (BPL3.x0 p) (p 1).tv (p 3).tv x := rfl

theorem val_lo {p : Pars} (h : Sane p) {x : ℝ} (hx : 0 < x) (hlt : x ≤ BPL3.x0 p) :
    BPL3.value p x = nrm (p 0).tv (p 1).tv (p 4).tv (p 5).tv * x ^ (p 1).tv := by
  rw [← low3 h hx]
  rcases lt_or_eq_of_le hlt with h1 | h1
  · exact if_pos h1
  · rw [bpl3_value, bpl_ge (not_lt.mpr h1.ge), h1, div_self (x0_pos h).ne', Real.one_rpow, Real.one_rpow]

theorem val_hi {p : Pars} (h : Sane p) {x : ℝ} (hx : 0 < x) (hlt : BPL3.x0 p ≤ x) :
    BPL3.value p x = nrm (p 2).tv (p 3).tv (p 6).tv (p 7).tv * x ^ (p 3).tv := by
  rw [← high3 h hx]
  exact if_neg (not_lt.mpr hlt)

/-- Below the break it has the first flux between the first limits, above it the second. -/
theorem C52_bpl3_normalised {p : Pars} (h : Sane p) :
    ((p 5).tv ≤ BPL3.x0 p → ∫ x in (p 4).tv..(p 5).tv, BPL3.value p x = (p 0).tv) ∧
    (BPL3.x0 p ≤ (p 6).tv → ∫ x in (p 6).tv..(p 7).tv, BPL3.value p x = (p 2).tv) := by
  constructor
  · intro hle
    have e : ∀ x ∈ Set.uIcc (p 4).tv (p 5).tv, BPL3.value p x = nrm (p 0).tv (p 1).tv (p 4).tv (p 5).tv * x ^ (p 1).tv := by
      intro x hx
      rw [Set.uIcc_of_le h.hi1.le] at hx
      exact val_lo h (h.lo1.trans_le hx.1) (hx.2.trans hle)
    rw [intervalIntegral.integral_congr (fun x hx => e x hx), intervalIntegral.integral_const_mul, nrm_eq h.lo1 h.hi1 h.i1]
    have := (int_pos (g := (p 1).tv) h.lo1 h.hi1).ne'
    field_simp
  · intro hle
    have e : ∀ x ∈ Set.uIcc (p 6).tv (p 7).tv, BPL3.value p x = nrm (p 2).tv (p 3).tv (p 6).tv (p 7).tv * x ^ (p 3).tv := by
      intro x hx
      rw [Set.uIcc_of_le h.hi2.le] at hx
      exact val_hi h (h.lo2.trans_le hx.1) (hle.trans hx.1)
    rw [intervalIntegral.integral_congr (fun x hx => e x hx), intervalIntegral.integral_const_mul, nrm_eq h.lo2 h.hi2 h.i2]
    have := (int_pos (g := (p 3).tv) h.lo2 h.hi2).ne'
    field_simp

/-- What `integral` returns is the integral divided by the break energy. -/
theorem C52_bpl3_integral_violates {p : Pars} (h : Sane p) {a b : ℝ} (ha : 0 < a) (hb : 0 < b)
    (hne : min a b ≠ BPL3.x0 p) : BPL3.integral p a b = (∫ x in a..b, BPL3.value p x) / BPL3.x0 p := by
  have a' : 1 + (p 1).tv ≠ 0 := fun e => h.i1 (by linarith)
  have b' : 1 + (p 3).tv ≠ 0 := fun e => h.i2 (by linarith)
  simp only [bpl3_value]
  rw [bpl_integral (x0_pos h) ha hb a' b', ← integral_body hne]
  simp only [BPL3.integral]
  have := (x0_pos h).ne'
  field_simp

theorem C51_bpl3 {p : Pars} (h : Sane p) {x : ℝ} (hx : 0 < x) : ContinuousAt (BPL3.value p) x :=
  bpl_continuousAt (x0_pos h) hx

theorem nrm_has {F g lo hi : ℝ} (hlo : 0 < lo) (hhi : lo < hi) (hg : g ≠ -1) :
    HasDerivAt (fun a => nrm F a lo hi) (nrm F g lo hi * (1 / (1 + g) -
      (hi ^ (1 + g) * Real.log hi - lo ^ (1 + g) * Real.log lo) / (hi ^ (1 + g) - lo ^ (1 + g)))) g := by
  have h1 : 1 + g ≠ 0 := fun e => hg (by linarith)
  have hd := sub_pow_ne hlo hhi h1
  have hs := (idd g).const_add 1
  refine ((hs.const_mul F).fun_div ((cpow (hlo.trans hhi) hs).fun_sub (cpow hlo hs)) hd).congr_deriv ?_
  unfold nrm
  generalize hi ^ (1 + g) = A at *
  generalize lo ^ (1 + g) = B at *
  field_simp

/-- Away from the break every derivative is right. -/
theorem C50_bpl3 {p : Pars} (h : Sane p) {x : ℝ} (hx : 0 < x) (hxb : x ≠ BPL3.x0 p) {i : Nat} (hi : i < 4) :
    ∃ d, BPL3.deriv p i x = .ok d ∧ Partial (fun q => BPL3.value q x) p i d := by
  have h0 := x0_pos h
  have hl := low3 h hx
  have hh := high3 h hx
  have c1 := nrm_pos h.f1 h.lo1 h.hi1 h.i1
  have c2 := nrm_pos h.f2 h.lo2 h.hi2 h.i2
  have cr := (div_pos c1 c2).ne'
  have hne : (p 3).tv - (p 1).tv ≠ 0 := sub_ne_zero.mpr h.ne.symm
  have hlog : Real.log (BPL3.x0 p) + Real.log (x / BPL3.x0 p) = Real.log x := by
    rw [Real.log_div hx.ne' h0.ne']; ring
  -- the break moves continuously with each parameter
  have k0 : ContinuousAt (fun a => (nrm a (p 1).tv (p 4).tv (p 5).tv /
      nrm (p 2).tv (p 3).tv (p 6).tv (p 7).tv) ^ (1 / ((p 3).tv - (p 1).tv))) (p 0).tv := by
    refine ContinuousAt.rpow_const ?_ (Or.inl cr)
    unfold nrm
    exact ((((idd _).mul_const _).div_const _).div_const _).continuousAt
  have k1 : ContinuousAt (fun a => (nrm (p 0).tv a (p 4).tv (p 5).tv /
      nrm (p 2).tv (p 3).tv (p 6).tv (p 7).tv) ^ (1 / ((p 3).tv - a))) (p 1).tv := by
    refine ContinuousAt.rpow ?_ ?_ (Or.inl cr)
    · exact ((nrm_has h.lo1 h.hi1 h.i1).div_const _).continuousAt
    · exact (cdiv 1 ((idd _).const_sub _) hne).continuousAt
  have k2 : ContinuousAt (fun a => (nrm (p 0).tv (p 1).tv (p 4).tv (p 5).tv /
      nrm a (p 3).tv (p 6).tv (p 7).tv) ^ (1 / ((p 3).tv - (p 1).tv))) (p 2).tv := by
    refine ContinuousAt.rpow_const ?_ (Or.inl cr)
    have : HasDerivAt (fun a => nrm a (p 3).tv (p 6).tv (p 7).tv) _ (p 2).tv := ((idd _).mul_const _).div_const _
    exact (cdiv _ this c2.ne').continuousAt
  have k3 : ContinuousAt (fun a => (nrm (p 0).tv (p 1).tv (p 4).tv (p 5).tv /
      nrm (p 2).tv a (p 6).tv (p 7).tv) ^ (1 / (a - (p 1).tv))) (p 3).tv := by
    refine ContinuousAt.rpow ?_ ?_ (Or.inl cr)
    · exact (cdiv _ (nrm_has h.lo2 h.hi2 h.i2) c2.ne').continuousAt
    · exact (cdiv 1 ((idd _).sub_const _) hne).continuousAt
  have s0 : ∀ᶠ a in nhds (p 0).tv, ∀ t, t * (p 0).scale = a → Sane (setv p 0 t) := by
    filter_upwards [eventually_gt_nhds h.f1] with a ha t ht
    subst ht
    exact ⟨ha, h.f2, h.i1, h.i2, h.ne, h.lo1, h.hi1, h.lo2, h.hi2⟩
  have s1 : ∀ᶠ a in nhds (p 1).tv, ∀ t, t * (p 1).scale = a → Sane (setv p 1 t) := by
    filter_upwards [isOpen_ne.mem_nhds h.i1, isOpen_ne.mem_nhds h.ne] with a ha hb t ht
    subst ht
    exact ⟨h.f1, h.f2, ha, h.i2, hb, h.lo1, h.hi1, h.lo2, h.hi2⟩
  have s2 : ∀ᶠ a in nhds (p 2).tv, ∀ t, t * (p 2).scale = a → Sane (setv p 2 t) := by
    filter_upwards [eventually_gt_nhds h.f2] with a ha t ht
    subst ht
    exact ⟨h.f1, ha, h.i1, h.i2, h.ne, h.lo1, h.hi1, h.lo2, h.hi2⟩
  have s3 : ∀ᶠ a in nhds (p 3).tv, ∀ t, t * (p 3).scale = a → Sane (setv p 3 t) := by
    filter_upwards [isOpen_ne.mem_nhds h.i2, isOpen_ne.mem_nhds h.ne.symm] with a ha hb t ht
    subst ht
    exact ⟨h.f1, h.f2, h.i1, ha, fun e => hb e.symm, h.lo1, h.hi1, h.lo2, h.hi2⟩
  have hf1 := h.f1.ne'
  have hf2 := h.f2.ne'
  rcases lt_or_gt_of_ne hxb with hlt | hgt
  · have hlt' := hlt
    rw [x0_eq h] at hlt'
    obtain rfl | rfl | rfl | rfl : i = 0 ∨ i = 1 ∨ i = 2 ∨ i = 3 := by omega
    · refine ⟨_, if_neg (not_le.mpr hlt), partial_ev (g := fun a => nrm a (p 1).tv (p 4).tv (p 5).tv * x ^ (p 1).tv) ?_
        ((((idd _).mul_const _).div_const _).mul_const _) ?_⟩
      · filter_upwards [s0, continuousAt_const.eventually_lt k0 hlt'] with a hs hx0 t ht
        have hS := hs t ht
        subst ht
        exact val_lo hS hx (by rw [x0_eq hS]; exact hx0.le)
      · rw [mul_comm ((x / BPL3.x0 p) ^ (p 1).tv), hl]; unfold nrm; field_simp
    · refine ⟨_, if_neg (not_le.mpr hlt), partial_ev (g := fun a => nrm (p 0).tv a (p 4).tv (p 5).tv * x ^ a) ?_
        ((nrm_has h.lo1 h.hi1 h.i1).fun_mul (cpow hx (idd _))) ?_⟩
      · filter_upwards [s1, continuousAt_const.eventually_lt k1 hlt'] with a hs hx0 t ht
        have hS := hs t ht
        subst ht
        exact val_lo hS hx (by rw [x0_eq hS]; exact hx0.le)
      · rw [← hlog]; linear_combination (p 1).scale * (1 / (1 + (p 1).tv) + Real.log (BPL3.x0 p) -
          ((p 5).tv ^ (1 + (p 1).tv) * Real.log (p 5).tv - (p 4).tv ^ (1 + (p 1).tv) * Real.log (p 4).tv) /
            ((p 5).tv ^ (1 + (p 1).tv) - (p 4).tv ^ (1 + (p 1).tv)) + Real.log (x / BPL3.x0 p)) * hl
    · refine ⟨_, if_pos hlt, partial_zero' (nrm (p 0).tv (p 1).tv (p 4).tv (p 5).tv * x ^ (p 1).tv) ?_⟩
      have ht := (lin (p 2).scale (p 2).value).continuousAt.eventually
        (s2.and (continuousAt_const.eventually_lt k2 hlt'))
      filter_upwards [ht] with t ht
      have hS := ht.1 t rfl
      exact val_lo hS hx (by rw [x0_eq hS]; exact ht.2.le)
    · refine ⟨_, if_pos hlt, partial_zero' (nrm (p 0).tv (p 1).tv (p 4).tv (p 5).tv * x ^ (p 1).tv) ?_⟩
      have ht := (lin (p 3).scale (p 3).value).continuousAt.eventually
        (s3.and (continuousAt_const.eventually_lt k3 hlt'))
      filter_upwards [ht] with t ht
      have hS := ht.1 t rfl
      exact val_lo hS hx (by rw [x0_eq hS]; exact ht.2.le)
  · have hgt' : _ < x := hgt
    rw [x0_eq h] at hgt'
    obtain rfl | rfl | rfl | rfl : i = 0 ∨ i = 1 ∨ i = 2 ∨ i = 3 := by omega
    · refine ⟨_, if_pos hgt.le, partial_zero' (nrm (p 2).tv (p 3).tv (p 6).tv (p 7).tv * x ^ (p 3).tv) ?_⟩
      have ht := (lin (p 0).scale (p 0).value).continuousAt.eventually
        (s0.and (k0.eventually_lt continuousAt_const hgt'))
      filter_upwards [ht] with t ht
      have hS := ht.1 t rfl
      exact val_hi hS hx (by rw [x0_eq hS]; exact ht.2.le)
    · refine ⟨_, if_pos hgt.le, partial_zero' (nrm (p 2).tv (p 3).tv (p 6).tv (p 7).tv * x ^ (p 3).tv) ?_⟩
      have ht := (lin (p 1).scale (p 1).value).continuousAt.eventually
        (s1.and (k1.eventually_lt continuousAt_const hgt'))
      filter_upwards [ht] with t ht
      have hS := ht.1 t rfl
      exact val_hi hS hx (by rw [x0_eq hS]; exact ht.2.le)
    · refine ⟨_, if_neg hgt.not_gt, partial_ev (g := fun a => nrm a (p 3).tv (p 6).tv (p 7).tv * x ^ (p 3).tv) ?_
        ((((idd _).mul_const _).div_const _).mul_const _) ?_⟩
      · filter_upwards [s2, k2.eventually_lt continuousAt_const hgt'] with a hs hx0 t ht
        have hS := hs t ht
        subst ht
        exact val_hi hS hx (by rw [x0_eq hS]; exact hx0.le)
      · rw [div_mul_eq_mul_div, hh]; unfold nrm; field_simp
    · refine ⟨_, if_neg hgt.not_gt, partial_ev (g := fun a => nrm (p 2).tv a (p 6).tv (p 7).tv * x ^ a) ?_
        ((nrm_has h.lo2 h.hi2 h.i2).fun_mul (cpow hx (idd _))) ?_⟩
      · filter_upwards [s3, k3.eventually_lt continuousAt_const hgt'] with a hs hx0 t ht
        have hS := hs t ht
        subst ht
        exact val_hi hS hx (by rw [x0_eq hS]; exact hx0.le)
      · rw [← hlog]; linear_combination (p 3).scale * (1 / (1 + (p 3).tv) + Real.log (BPL3.x0 p) -
          ((p 7).tv ^ (1 + (p 3).tv) * Real.log (p 7).tv - (p 6).tv ^ (1 + (p 3).tv) * Real.log (p 6).tv) /
            ((p 7).tv ^ (1 + (p 3).tv) - (p 6).tv ^ (1 + (p 3).tv)) + Real.log (x / BPL3.x0 p)) * hh

/-! ### A concrete case: the break lies between the two pairs of limits -/

/-- Flux 1 from 1 to 2 with index 0, flux 2 from 3 to 4 with index 2. -/
def exB : Pars := fun i => ⟨[1, 0, 2, 2, 1, 2, 3, 4].getD i 0, 1⟩

theorem exB_sane : Sane exB := by
  constructor <;> norm_num [P.tv, exB]

theorem exB_x0 : BPL3.x0 exB = Real.sqrt (37 / 6) := by
  have e : ∀ y : ℝ, y ^ (1 + 2 : ℝ) = y ^ (3 : ℕ) := fun y => by
    rw [← Real.rpow_natCast]; norm_num
  rw [x0_eq exB_sane, Real.sqrt_eq_rpow]
  simp only [exB, P.tv, nrm, List.getD_cons_zero, List.getD_cons_succ, mul_one, e]
  norm_num

theorem exB_break : (2 : ℝ) ≤ BPL3.x0 exB ∧ BPL3.x0 exB ≤ 3 := by
  rw [exB_x0]
  constructor
  · exact Real.le_sqrt_of_sq_le (by norm_num)
  · exact Real.sqrt_le_iff.mpr ⟨by norm_num, by norm_num⟩

example : ∫ x in (1 : ℝ)..2, BPL3.value exB x = 1 := by
  have := (C52_bpl3_normalised exB_sane).1 (by simpa [exB, P.tv] using exB_break.1)
  simpa [exB, P.tv] using this

example : ∫ x in (3 : ℝ)..4, BPL3.value exB x = 2 := by
  have := (C52_bpl3_normalised exB_sane).2 (by simpa [exB, P.tv] using exB_break.2)
  simpa [exB, P.tv] using this

example : ∃ d, BPL3.deriv exB 1 1 = .ok d ∧ Partial (fun q => BPL3.value q 1) exB 1 d :=
  C50_bpl3 exB_sane one_pos (by linarith [exB_break.1]) (by decide)

/-- For these settings the method's answer differs from the integral. -/
example : BPL3.integral exB 1 2 ≠ ∫ x in (1 : ℝ)..2, BPL3.value exB x := by
  have hb := exB_break.1
  rw [C52_bpl3_integral_violates exB_sane one_pos two_pos (by rw [min_eq_left one_le_two]; linarith)]
  have := (C52_bpl3_normalised exB_sane).1 (by simpa [exB, P.tv] using exB_break.1)
  rw [show ∫ x in (1 : ℝ)..2, BPL3.value exB x = 1 by simpa [exB, P.tv] using this]
  intro h
  rw [div_eq_iff (by linarith)] at h
  linarith

example : ContinuousAt (BPL3.value exB) (BPL3.x0 exB) := C51_bpl3 exB_sane (x0_pos exB_sane)

end Verif.PowerLaws
