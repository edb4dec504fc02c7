import Verif.EM.Lemmas
import Mathlib.Analysis.Complex.ExponentialBounds
/-
C64: the fit by expectation maximisation.
-/
set_option linter.unusedSectionVars false
set_option linter.unusedSimpArgs false
set_option linter.unusedVariables false
namespace Verif.EM
open Verif.EM.Spec

variable {P E : Type}

/-- The weights of an event are probabilities: not negative, and they sum to one; each is the
share of the source in the density. -/
theorem C64_weights (srcs : List (Src P E × P)) (events : List E) (hp : Proper events srcs) (e : E) (he : e ∈ events) :
    (∀ s ∈ srcs, 0 ≤ weight srcs s e ∧ weight srcs s e * density srcs e = s.1.dens s.2 e) ∧
    (srcs.map fun s => weight srcs s e).sum = 1 := by
  have hz := hp.2 e he
  have hw : ∀ s, weight srcs s e = s.1.dens s.2 e / density srcs e := by
    intro s
    unfold weight
    rw [ztot_eq, if_pos hz]
  refine ⟨fun s hs => ?_, ?_⟩
  · rw [hw]
    exact ⟨div_nonneg (hp.1 s hs _ _) hz.le, div_mul_cancel₀ _ hz.ne'⟩
  · simp only [hw]
    rw [sum_div]
    exact div_self hz.ne'

/-- Nothing is lost by the cuts: a source has no weight for an event or one above the cut, and
then densities above the cut before and after. -/
def Uncut (opt : Src P E → (P → ℝ) → P → P) (events : List E) (srcs : List (Src P E × P)) : Prop :=
  ∀ s ∈ srcs, ∀ e ∈ events, s.1.dens s.2 e = 0 ∨
    (epsW < weight srcs s e ∧ epsF < s.1.dens s.2 e ∧ epsF < s.1.dens (mStep opt s.1 (weighted srcs events s) s.2) e)

/-- The optimizer does not make its objective worse. -/
def Improves (opt : Src P E → (P → ℝ) → P → P) : Prop :=
  ∀ (s : Src P E) (f : P → ℝ) (p : P), f p ≤ f (opt s f p)

theorem mStep_improves {opt : Src P E → (P → ℝ) → P → P} (hi : Improves opt) (s : Src P E) (ew : List (E × ℝ)) (p : P) :
    oneSource epsW epsF s ew p ≤ oneSource epsW epsF s ew (mStep opt s ew p) := by
  unfold mStep
  split
  · exact le_rfl
  · exact hi s _ p

theorem epsW_pos : (0 : ℝ) < epsW := by unfold epsW; norm_num

theorem epsF_pos : (0 : ℝ) < epsF := by unfold epsF; norm_num

/-- One round does not make the likelihood worse, if no weight is cut. -/
theorem C64_monotone_partial (opt : Src P E → (P → ℝ) → P → P) (hi : Improves opt) (events : List E)
    (srcs : List (Src P E × P)) (hp : Proper events srcs) (hu : Uncut opt events srcs) :
    logLike events srcs ≤ logLike events (iteration opt events srcs).1 ∧
    Proper events (iteration opt events srcs).1 := by
  set new : Src P E × P → P := fun s => mStep opt s.1 (weighted srcs events s) s.2 with hnew
  have hit : (iteration opt events srcs).1 = srcs.map fun s => (s.1, new s) := rfl
  have hwt : ∀ s ∈ srcs, ∀ e ∈ events, weight srcs s e = s.1.dens s.2 e / density srcs e := by
    intro s _ e he
    unfold weight
    rw [ztot_eq, if_pos (hp.2 e he)]
  -- the gain of each source
  have hgain : ∀ s ∈ srcs, s.1.npred (new s) - s.1.npred s.2 ≤
      (events.map fun e => weight srcs s e * (Real.log (s.1.dens (new s) e) - Real.log (s.1.dens s.2 e))).sum := by
    intro s hs
    have h := mStep_improves hi s.1 (weighted srcs events s) s.2
    rw [oneSource_eq, oneSource_eq] at h
    unfold weighted at h
    rw [List.map_map, List.map_map] at h
    have h1 : (events.map ((fun x : E × ℝ => if epsW < x.2 ∧ epsF < |s.1.dens s.2 x.1| then
        x.2 * Real.log (s.1.dens s.2 x.1) else 0) ∘ fun e => (e, weight srcs s e))) =
        events.map fun e => weight srcs s e * Real.log (s.1.dens s.2 e) := by
      refine List.map_congr_left fun e he => ?_
      simp only [Function.comp]
      rcases hu s hs e he with h0 | ⟨h1, h2, _⟩
      · rw [hwt s hs e he, h0, zero_div, if_neg (fun h => by linarith [h.1, epsW_pos]), zero_mul]
      · rw [if_pos ⟨h1, h2.trans_le (le_abs_self _)⟩]
    have h2 : (events.map ((fun x : E × ℝ => if epsW < x.2 ∧ epsF < |s.1.dens (new s) x.1| then
        x.2 * Real.log (s.1.dens (new s) x.1) else 0) ∘ fun e => (e, weight srcs s e))) =
        events.map fun e => weight srcs s e * Real.log (s.1.dens (new s) e) := by
      refine List.map_congr_left fun e he => ?_
      simp only [Function.comp]
      rcases hu s hs e he with h0 | ⟨h1, _, h2⟩
      · rw [hwt s hs e he, h0, zero_div, if_neg (fun h => by linarith [h.1, epsW_pos]), zero_mul]
      · rw [if_pos ⟨h1, h2.trans_le (le_abs_self _)⟩]
    change _ ≤ (events.map ((fun x : E × ℝ => if epsW < x.2 ∧ epsF < |s.1.dens (new s) x.1| then
        x.2 * Real.log (s.1.dens (new s) x.1) else 0) ∘ fun e => (e, weight srcs s e))).sum - s.1.npred (new s) at h
    rw [h1, h2] at h
    simp only [mul_sub]
    rw [sum_sub]
    linarith
  -- Jensen for each event
  have hj : ∀ e ∈ events, 0 < (srcs.map fun s => s.1.dens (new s) e).sum ∧
      (srcs.map fun s => weight srcs s e * (Real.log (s.1.dens (new s) e) - Real.log (s.1.dens s.2 e))).sum ≤
        Real.log (srcs.map fun s => s.1.dens (new s) e).sum - Real.log (density srcs e) := by
    intro e he
    have := jensen (fun s : Src P E × P => s.1.dens s.2 e) (fun s => s.1.dens (new s) e) srcs
      (fun s hs => hp.1 s hs _ _) (fun s hs => hp.1 s hs _ _)
      (fun s hs hq => by
        rcases hu s hs e he with h0 | ⟨_, _, h2⟩
        · exact absurd h0 (ne_of_gt hq)
        · exact epsF_pos.trans h2) (hp.2 e he)
    refine ⟨this.1, le_trans (le_of_eq ?_) this.2⟩
    refine congrArg List.sum (List.map_congr_left fun s hs => ?_)
    rw [hwt s hs e he]
    rfl
  have hden : ∀ e, density (iteration opt events srcs).1 e = (srcs.map fun s => s.1.dens (new s) e).sum := by
    intro e
    unfold density
    rw [hit, List.map_map]
    rfl
  constructor
  · have e1 := sum_le _ _ srcs hgain
    rw [sum_sub, sum_swap (fun s : Src P E × P => fun e => weight srcs s e *
      (Real.log (s.1.dens (new s) e) - Real.log (s.1.dens s.2 e)))] at e1
    have e2 := sum_le _ _ events fun e he => (hj e he).2
    rw [sum_sub] at e2
    unfold logLike
    simp only [hden]
    have e3 : ((iteration opt events srcs).1.map fun s => s.1.npred s.2) = srcs.map fun s => s.1.npred (new s) := by
      rw [hit, List.map_map]
      rfl
    rw [e3]
    linarith
  · refine ⟨fun s hs p e => ?_, fun e he => ?_⟩
    · rw [hit] at hs
      obtain ⟨t, ht, rfl⟩ := List.mem_map.1 hs
      exact hp.1 t ht p e
    · rw [hden]
      exact (hj e he).1

/-- A whole fit does not make the likelihood worse, if no weight is cut in any of its rounds. -/
theorem C64_fit_partial (opt : Src P E → (P → ℝ) → P → P) (hi : Improves opt) (events : List E)
    (srcs out : List (Src P E × P)) (l : ℝ) (run : Run opt events srcs l out) (hp : Proper events srcs)
    (inv : List (Src P E × P) → Prop) (h0 : inv srcs) (hstep : ∀ s, inv s → inv (iteration opt events s).1)
    (hu : ∀ s, inv s → Uncut opt events s) :
    logLike events srcs ≤ logLike events out := by
  induction run with
  | stop srcs l h => exact (C64_monotone_partial opt hi events srcs hp (hu _ h0)).1
  | go srcs l out h next ih =>
    have := C64_monotone_partial opt hi events srcs hp (hu _ h0)
    exact this.1.trans (ih this.2 (hstep _ h0))

/-- Each source is fitted with weights from before the round, so the order of the sources does
not matter; a source without free parameters is left alone. -/
theorem C64_fixed (opt : Src P E → (P → ℝ) → P → P) (events : List E) (srcs : List (Src P E × P)) (i : Nat)
    (s : Src P E × P) (h : srcs[i]? = some s) (h0 : s.1.nfree = 0) :
    (iteration opt events srcs).1[i]? = some s := by
  unfold iteration
  simp only [List.getElem?_map, h, Option.map_some]
  unfold mStep
  rw [if_pos (by omega)]

/-! ### What the cuts do -/

/-- A source that has at most one per cent of the density at every event is fitted as if there
were no events: its objective is its predicted counts alone, with the wrong sign. -/
theorem C64_faint_violates (srcs : List (Src P E × P)) (events : List E) (s : Src P E × P)
    (h : ∀ e ∈ events, weight srcs s e ≤ 0.01) (p : P) :
    oneSource epsW epsF s.1 (weighted srcs events s) p = -s.1.npred p := by
  rw [oneSource_eq]
  unfold weighted
  rw [List.map_map]
  have : (events.map ((fun x : E × ℝ => if epsW < x.2 ∧ epsF < |s.1.dens p x.1| then
      x.2 * Real.log (s.1.dens p x.1) else 0) ∘ fun e => (e, weight srcs s e))) = events.map fun _ => (0 : ℝ) := by
    refine List.map_congr_left fun e he => ?_
    simp only [Function.comp]
    rw [if_neg]
    intro hc
    have h1 := h e he
    have h2 := hc.1
    unfold epsW at h2
    linarith
  rw [this]
  simp

/-- The bright source of the example. -/
noncomputable def bright : Src ℝ Unit := ⟨fun p _ => 0.99 * |p|, fun p => 0.99 * |p|, 1⟩

/-- The faint source of the example. -/
noncomputable def faint : Src ℝ Unit := ⟨fun p _ => 0.01 * |p|, fun p => 0.01 * |p|, 1⟩

/-- An optimizer that tries half the value. -/
noncomputable def halve : Src ℝ Unit → (ℝ → ℝ) → ℝ → ℝ := fun _ f p =>
  open Classical in if f p ≤ f (p / 2) then p / 2 else p

theorem halve_improves : Improves halve := by
  intro s f p
  unfold halve
  split
  · assumption
  · exact le_rfl

/-- One event, two sources with one per cent and ninety-nine per cent of the density, at the
maximum of the likelihood; a round makes the likelihood worse, though neither objective gets
worse. -/
theorem C64_cut_violates :
    Proper [()] [(bright, 1), (faint, 1)] ∧ Improves halve ∧
    logLike [()] (iteration halve [()] [(bright, 1), (faint, 1)]).1 < logLike [()] [(bright, 1), (faint, 1)] := by
  have hd : density [(bright, 1), (faint, 1)] () = 1 := by
    norm_num [density, bright, faint]
  have hp : Proper [()] [(bright, 1), (faint, 1)] := by
    refine ⟨fun s hs p e => ?_, fun e _ => by rw [hd]; norm_num⟩
    simp only [List.mem_cons, List.not_mem_nil, or_false] at hs
    rcases hs with rfl | rfl
    · show (0 : ℝ) ≤ 0.99 * |p|
      positivity
    · show (0 : ℝ) ≤ 0.01 * |p|
      positivity
  have hwb : weight [(bright, 1), (faint, 1)] (bright, 1) () = 0.99 := by
    unfold weight
    rw [ztot_eq, hd, if_pos (by norm_num)]
    norm_num [bright]
  have hwf : weight [(bright, 1), (faint, 1)] (faint, 1) () = 0.01 := by
    unfold weight
    rw [ztot_eq, hd, if_pos (by norm_num)]
    norm_num [faint]
  have hob : ∀ p : ℝ, 1 / 10 ≤ p → oneSource epsW epsF bright [((), (0.99 : ℝ))] p = 0.99 * Real.log (0.99 * p) - 0.99 * p := by
    intro p hpos
    have habs : |p| = p := abs_of_pos (by linarith)
    rw [oneSource_eq]
    simp only [List.map_cons, List.map_nil, List.sum_cons, List.sum_nil, add_zero, bright, habs]
    rw [if_pos]
    refine ⟨by unfold epsW; norm_num, ?_⟩
    rw [abs_of_pos (by linarith)]
    unfold epsF
    have : (1 : ℝ) / 10 ^ 20 < 0.099 := by norm_num
    linarith
  have hmb : mStep halve bright (weighted [(bright, 1), (faint, 1)] [()] (bright, 1)) 1 = 1 := by
    unfold mStep
    rw [if_neg (by simp [bright])]
    unfold weighted halve
    simp only [List.map_cons, List.map_nil, hwb]
    rw [if_neg]
    rw [hob 1 (by norm_num), hob (1 / 2) (by norm_num), not_le]
    have h1 : Real.log (0.99 * (1 / 2)) = Real.log 0.99 - Real.log 2 := by
      rw [Real.log_mul (by norm_num) (by norm_num), Real.log_div (by norm_num) (by norm_num), Real.log_one]
      ring
    rw [h1, mul_one]
    have := Real.log_two_gt_d9
    linarith
  have hmf : mStep halve faint (weighted [(bright, 1), (faint, 1)] [()] (faint, 1)) 1 = 1 / 2 := by
    unfold mStep
    rw [if_neg (by simp [faint])]
    unfold halve
    have hall : ∀ e ∈ [()], weight [(bright, 1), (faint, 1)] (faint, 1) e ≤ 0.01 := by
      intro e _
      rw [hwf]
    rw [C64_faint_violates _ _ _ hall, C64_faint_violates _ _ _ hall, if_pos]
    norm_num [faint]
  refine ⟨hp, halve_improves, ?_⟩
  have hit : (iteration halve [()] [(bright, 1), (faint, 1)]).1 = [(bright, 1), (faint, 1 / 2)] := by
    unfold iteration
    simp only [List.map_cons, List.map_nil, hmb, hmf]
  rw [hit]
  have e1 : logLike [()] [(bright, (1 : ℝ)), (faint, 1 / 2)] = Real.log 0.995 - 0.995 := by
    norm_num [logLike, density, bright, faint]
  have e2 : logLike [()] [(bright, (1 : ℝ)), (faint, 1)] = -1 := by
    norm_num [logLike, density, bright, faint]
  rw [e1, e2]
  have := Real.log_lt_sub_one_of_pos (x := 0.995) (by norm_num) (by norm_num)
  linarith

/-- An optimizer that tries zero. -/
noncomputable def tryZero : Src ℝ Unit → (ℝ → ℝ) → ℝ → ℝ := fun _ f p =>
  open Classical in if f p ≤ f 0 then 0 else p

/-- A vanishing density is left out of the objective instead of excluding the parameters: one
source, one event at a density below one; switching the source off looks better, and afterwards
no source accounts for the event. -/
theorem C64_zero_violates :
    Proper [()] [(bright, 1)] ∧ Improves tryZero ∧ density (iteration tryZero [()] [(bright, 1)]).1 () = 0 := by
  have hd : density [(bright, 1)] () = 0.99 := by norm_num [density, bright]
  refine ⟨⟨fun s hs p e => ?_, fun e _ => by rw [hd]; norm_num⟩, fun s f p => ?_, ?_⟩
  · simp only [List.mem_cons, List.not_mem_nil, or_false] at hs
    subst hs
    show (0 : ℝ) ≤ 0.99 * |p|
    positivity
  · unfold tryZero
    split
    · assumption
    · exact le_rfl
  · have hw : weight [(bright, 1)] (bright, 1) () = 1 := by
      unfold weight
      rw [ztot_eq, hd, if_pos (by norm_num)]
      norm_num [bright]
    have hm : mStep tryZero bright (weighted [(bright, 1)] [()] (bright, 1)) 1 = 0 := by
      unfold mStep
      rw [if_neg (by simp [bright])]
      unfold weighted tryZero
      simp only [List.map_cons, List.map_nil, hw]
      rw [if_pos]
      rw [oneSource_eq, oneSource_eq]
      simp only [List.map_cons, List.map_nil, List.sum_cons, List.sum_nil, add_zero, bright, abs_zero, mul_zero, abs_one,
        mul_one, sub_zero, one_mul, Real.log_zero, ite_self]
      have : Real.log 0.99 ≤ 0 := Real.log_nonpos (by norm_num) (by norm_num)
      split <;> linarith
    unfold iteration density
    simp only [List.map_cons, List.map_nil, hm]
    norm_num [bright]

/-! ### The end of the loop -/

theorem nPar_iteration (opt : Src P E → (P → ℝ) → P → P) (events : List E) (srcs : List (Src P E × P)) :
    nPar (iteration opt events srcs).1 = nPar srcs := by
  unfold nPar iteration
  simp only [List.map_map]
  rfl

/-- With two thousand free parameters or more the tolerance is negative, and the loop never ends;
without free parameters it ends with an exception. -/
theorem C64_endless_violates (opt : Src P E → (P → ℝ) → P → P) (events : List E) (srcs : List (Src P E × P)) (l : ℝ)
    (hn' : 2000 ≤ (srcs.map fun s => s.1.nfree).sum ∨ (srcs.map fun s => s.1.nfree).sum = 0) : ¬ ∃ out, Run opt events srcs l out := by
  have hn : 2000 ≤ nPar srcs ∨ nPar srcs = 0 := hn'
  clear hn'
  rintro ⟨out, run⟩
  induction run with
  | stop srcs l h =>
    unfold again at h
    rw [Res.bind_eq_ok] at h
    obtain ⟨c, h1, h2⟩ := h
    simp only [Res.ok.injEq, decide_eq_false_iff_not, not_or, not_lt] at h2
    have habs := abs_nonneg ((iteration opt events srcs).2 - l)
    unfold chifunc at h1
    rcases hn with hn | hn
    · rw [if_neg (by omega), if_neg (by omega)] at h1
      simp only [Res.ok.injEq] at h1
      have hx : (12.3 : ℝ) ≤ ((nPar srcs : ℝ) - 255) / 141.5951 := by
        rw [le_div_iff₀ (by norm_num)]
        have : (2000 : ℝ) ≤ (nPar srcs : ℝ) := by exact_mod_cast hn
        linarith
      generalize ((nPar srcs : ℝ) - 255) / 141.5951 = x at h1 hx
      have e1 : x * (0.2429 + x * (-0.1234)) ≤ -15.6 := by nlinarith
      have e2 : x * (-0.2998 + x * (0.2429 + x * (-0.1234))) ≤ -195 := by nlinarith
      have e3 : x * (144.4737 + x * (-0.2998 + x * (0.2429 + x * (-0.1234)))) ≤ -600 := by nlinarith
      have hc : c < 0 := by rw [← h1]; linarith
      linarith [h2.1]
    · rw [if_pos (by omega)] at h1
      cases h1
  | go srcs l out h next ih =>
    apply ih
    rw [nPar_iteration]
    exact hn

/-- Two sources of equal strength for one event: the hypotheses of the theorem on one round. -/
example : Proper [()] [(bright, 1), (bright, 1)] ∧ Uncut (fun _ _ p => p) [()] [(bright, 1), (bright, 1)] ∧
    Improves (fun (_ : Src ℝ Unit) (_ : ℝ → ℝ) (p : ℝ) => p) := by
  have hd : density [(bright, 1), (bright, 1)] () = 1.98 := by norm_num [density, bright]
  refine ⟨⟨fun s hs p e => ?_, fun e _ => by rw [hd]; norm_num⟩, fun s hs e _ => Or.inr ?_, fun s f p => le_rfl⟩
  · simp only [List.mem_cons, List.not_mem_nil, or_false, or_self] at hs
    subst hs
    show (0 : ℝ) ≤ 0.99 * |p|
    positivity
  · simp only [List.mem_cons, List.not_mem_nil, or_false, or_self] at hs
    subst hs
    have hm : mStep (fun _ _ p => p) bright (weighted [(bright, (1 : ℝ)), (bright, 1)] [()] (bright, 1)) 1 = (1 : ℝ) := by
      unfold mStep
      split <;> rfl
    simp only [hm]
    unfold weight
    rw [ztot_eq]
    obtain rfl : e = () := rfl
    rw [hd]
    norm_num [bright, epsW, epsF]

end Verif.EM
