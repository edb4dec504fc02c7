import Verif.OneSrc.Lemmas
import Mathlib.Tactic.NormNum
import Mathlib.Algebra.Order.Ring.Rat
import Mathlib.Algebra.Field.Rat

/-!
# C145: the likelihood of one source
-/

set_option linter.unusedSectionVars false
set_option linter.unusedSimpArgs false
set_option linter.unusedVariables false

namespace Verif.OneSrc

open SrcModel (Out Par count sel Fits Same)
open Spec

/-- **C145.** Without negative flux densities the value is `Σ w log q − Npred` over the events whose
weight and flux density exceed the two limits.  (Partial: negative flux densities excluded, see
`C145_negative_violates`.) -/
theorem C145_value_partial (epsw epsf : ℝ) (events : List (ℝ × ℝ)) (npred : ℝ)
    (h : ∀ e ∈ events, Used epsw epsf e.1 e.2 → 0 < e.2) :
    value epsw epsf events npred = some (logLike epsw epsf events npred) := by
  unfold value
  rw [valueLoop_ok epsw epsf events 0 h]
  simp only [Option.map_some, logLike]
  congr 1; ring

/-- **C145.** The derivative reported by the program is the derivative of the value, at each value
of the parameter at which no event is exactly at the limit in flux density.  (Partial: that
exception, and negative flux densities.) -/
theorem C145_gradient_partial (epsw epsf t npredDeriv : ℝ) (events : List Ev) (npred : ℝ → ℝ)
    (hd : ∀ e ∈ events, HasDerivAt e.q e.v t) (hN : HasDerivAt npred npredDeriv t)
    (hne : ∀ e ∈ events, epsw < e.w → |e.q t| ≠ epsf)
    (hpos : ∀ e ∈ events, Used epsw epsf e.w (e.q t) → 0 < e.q t) :
    ∃ L : ℝ → ℝ, (∀ᶠ s in nhds t, value epsw epsf (evAt events s) (npred s) = some (L s)) ∧
      HasDerivAt L (deriv epsw epsf (evDeriv events t) npredDeriv) t := by
  obtain ⟨h1, h2⟩ := loop_deriv epsw epsf t events hd hne hpos
  refine ⟨fun s => logLike epsw epsf (evAt events s) 0 - npred s, ?_, h2.sub hN⟩
  filter_upwards [h1] with s hs
  rw [C145_value_partial epsw epsf _ _ hs]
  simp only [logLike, sub_zero]

/-- **C145 (violation).** One event used with a negative flux density makes the value not a number,
whatever the other events; the derivative remains a number. -/
theorem C145_negative_violates (epsw epsf w q npred : ℝ) (events : List (ℝ × ℝ))
    (hm : (w, q) ∈ events) (hw : epsw < w) (hq : epsf < |q|) (hn : q < 0) :
    value epsw epsf events npred = none := by
  unfold value
  rw [valueLoop_none epsw epsf w q hw hq hn events 0 hm]
  rfl

/-- **C145 (violation).** A flux density at or below the limit is not counted as zero but not
counted at all.  A source that is dark, or darker than the limit, at the place of all events gets a
higher value than any source that predicts events with densities between the limit and one, however
well it describes them: increasing the flux lowers the value. -/
theorem C145_dark_violates (epsw epsf : ℝ) (h0 : 0 ≤ epsw) (hf : 0 < epsf)
    (dark bright : List (ℝ × ℝ)) (npred : ℝ)
    (hdark : ∀ e ∈ dark, |e.2| ≤ epsf) (hne : bright ≠ [])
    (hb : ∀ e ∈ bright, epsw < e.1 ∧ epsf < e.2 ∧ e.2 < 1) (hN : 0 ≤ npred) :
    value epsw epsf dark 0 = some 0 ∧ ∃ x, value epsw epsf bright npred = some x ∧ x < 0 := by
  constructor
  · rw [C145_value_partial epsw epsf dark 0
      (fun e he hu => absurd hu.2 (not_lt.2 (hdark e he)))]
    have : dark.filter (fun e => @decide (Used epsw epsf e.1 e.2) (Classical.propDecidable _)) = [] := by
      rw [List.filter_eq_nil_iff]
      intro e he hd
      exact absurd (@of_decide_eq_true _ (Classical.propDecidable _) hd).2 (not_lt.2 (hdark e he))
    simp only [logLike, this, List.map_nil, List.sum_nil, sub_zero]
  · refine ⟨_, C145_value_partial epsw epsf bright npred
      (fun e he _ => lt_trans hf (hb e he).2.1), ?_⟩
    have hall : bright.filter (fun e => @decide (Used epsw epsf e.1 e.2) (Classical.propDecidable _))
        = bright := by
      rw [List.filter_eq_self]
      intro e he
      obtain ⟨a, b, _⟩ := hb e he
      exact @decide_eq_true _ (Classical.propDecidable _) ⟨a, by rw [abs_of_pos (lt_trans hf b)]; exact b⟩
    simp only [logLike, hall]
    have hterm : ∀ e ∈ bright, e.1 * Real.log e.2 < 0 := by
      intro e he
      obtain ⟨a, b, c⟩ := hb e he
      exact mul_neg_of_pos_of_neg (lt_of_le_of_lt h0 a) (Real.log_neg (lt_trans hf b) c)
    have hsum : ∀ l : List (ℝ × ℝ), l ≠ [] → (∀ e ∈ l, e.1 * Real.log e.2 < 0) →
        (l.map (fun e => e.1 * Real.log e.2)).sum < 0 := by
      intro l
      induction l with
      | nil => intro h; exact absurd rfl h
      | cons e l ih =>
        intro _ h
        rw [List.map_cons, List.sum_cons]
        have h1 := h e List.mem_cons_self
        by_cases hl : l = []
        · subst hl; simpa using h1
        · have := ih hl (fun e he => h e (List.mem_cons_of_mem _ he))
          linarith
    have := hsum bright hne hterm
    linarith

section
variable {κ K : Type} [LinearOrder κ] [Field K] [LinearOrder K] [IsStrictOrderedRing K]

/-- **C145.** Values set through the object arrive, in order, at the functions of the source, and
are read back; nothing else of a parameter changes, and with `free only` the fixed parameters keep
their values.  (Partial: the object is up to date and the values are within the bounds.) -/
theorem C145_set_get_partial (onlyFree : Bool) (o : Obj κ K) (vs : List K)
    (hsync : o.param = o.funs.flatten) (hfit : List.Forall₂ Fits (sel onlyFree o.param) vs) :
    ∃ o', setValues onlyFree o vs = .ok o' () ∧ o'.param = o'.funs.flatten ∧
      getValues onlyFree o' = vs ∧ (sel onlyFree o'.funs.flatten).map (·.value) = vs ∧
      List.Forall₂ (List.Forall₂ (Same onlyFree)) o.funs o'.funs := by
  have hfit' := hfit
  rw [hsync] at hfit'
  obtain ⟨fs', h1, h2, h3⟩ := setLoop_ok onlyFree [] o.funs vs hfit'
  rw [List.append_nil] at h1
  have hp : (sync (⟨fs', o.param⟩ : Obj κ K)).param = fs'.flatten := sync_param _
  refine ⟨sync ⟨fs', o.param⟩, ?_, ?_, ?_, ?_, h2⟩
  · have hc : vs.length = count onlyFree o.param := by
      rw [SrcModel.count_eq]; exact hfit.length_eq.symm
    simp only [setValues, hc, ne_eq, not_true_eq_false, if_false, setValues_, h1]
  · rw [hp]; rfl
  · unfold getValues
    rw [hp]
    exact h3
  · exact h3

/-- **C145.** Setting all parameters replaces them all.  (Partial: the object is up to date, the
parameters come in the order of the source with the same names, and the names within one function
are distinct.) -/
theorem C145_setParams_partial (o : Obj κ K) (qss : List (List (Par κ K)))
    (hsync : o.param = o.funs.flatten)
    (hn : List.Forall₂ (List.Forall₂ (fun p q => p.name = q.name)) o.funs qss)
    (hnd : ∀ ps ∈ o.funs, (ps.map (·.name)).Nodup) :
    setParams o qss.flatten = .ok ⟨qss, qss.flatten⟩ () := by
  have hlen : ∀ (a b : List (List (Par κ K))),
      List.Forall₂ (List.Forall₂ (fun p q => p.name = q.name)) a b →
      b.flatten.length = a.flatten.length := by
    intro a b h
    induction h with
    | nil => rfl
    | cons h1 h2 ih => simp only [List.flatten_cons, List.length_append, ih, h1.length_eq]
  have hl : qss.flatten.length = o.param.length := by rw [hsync]; exact hlen _ _ hn
  have h1 := setAll_ok o.funs qss hn hnd
  simp only [setParams, hl, ne_eq, not_true_eq_false, if_false, h1]
  have hp := sync_param (⟨qss, o.param⟩ : Obj κ K)
  cases hs : sync (⟨qss, o.param⟩ : Obj κ K) with
  | mk a b =>
    rw [hs] at hp
    have : a = qss := by
      have : (sync (⟨qss, o.param⟩ : Obj κ K)).funs = qss := rfl
      rw [hs] at this; exact this
    simp only at hp
    rw [hp, this]

/-- **C145 (violation).** An exception on the second value: the source has the first new value, the
object still reports the old one. -/
theorem C145_value_exception_violates (p r : Par κ K) (v1 v2 : K) (h1 : Fits p v1) (h2 : ¬ Fits r v2) :
    ∃ o', setValues false (new [[p], [r]]) [v1, v2] = .throws o' ∧
      o'.funs = [[{ p with value := v1 }], [r]] ∧ getValues false o' = [p.value, r.value] := by
  have hf1 : p.lo ≤ v1 ∧ v1 ≤ p.hi := h1
  have hf2 : ¬ (r.lo ≤ v2 ∧ v2 ≤ r.hi) := h2
  refine ⟨⟨[[{ p with value := v1 }], [r]], [p, r]⟩, ?_, rfl, rfl⟩
  simp [setValues, setValues_, new, sync, count, setLoop, SrcModel.funSetValues, Par.setValue, hf1, hf2]

/-- **C145 (violation).** The same for whole parameters: the first function is changed before the
second complains of an unknown name. -/
theorem C145_params_exception_violates (p r q s : Par κ K) (h1 : p.name = q.name)
    (h2 : r.name ≠ s.name) :
    setParams (new [[p], [r]]) [q, s] = .throws ⟨[[q], [r]], [p, r]⟩ := by
  simp [setParams, new, sync, setAll, setOne, SrcModel.funSetParam, h1, h2]

/-- **C145 (violation).** A parameter of the source freed after the object was made: the object
accepts as many values as were free then, and reads past their end. -/
theorem C145_stale_violates (p r : Par κ K) (v : K) (hp : p.free = true) (hr : r.free = true)
    (h1 : Fits p v) :
    setValues true (⟨[[p, r]], (new [[p, { r with free := false }]]).param⟩ : Obj κ K) [v] = .ub := by
  have hf1 : p.lo ≤ v ∧ v ≤ p.hi := h1
  simp [setValues, setValues_, new, sync, count, SrcModel.numFree, setLoop, SrcModel.funSetValues,
    Par.setValue, hp, hr, hf1]

end

/-! ### The hypotheses are met -/

/-- Two events, the second below the limit in weight. -/
example : ∃ x, value (1 / 1000) (1 / 10) [(1, 2), (0, 5)] 3 = some x ∧ x = Real.log 2 - 3 := by
  refine ⟨_, C145_value_partial _ _ _ _ (by
    intro e he _
    simp only [List.mem_cons, List.not_mem_nil, or_false] at he
    rcases he with rfl | rfl <;> norm_num), ?_⟩
  have h1 : Used (1 / 1000) (1 / 10) 1 2 := ⟨by norm_num, by norm_num⟩
  have h2 : ¬ Used (1 / 1000) (1 / 10) 0 5 := fun h => absurd h.1 (by norm_num)
  simp only [logLike, List.filter_cons, List.filter_nil, h1, h2, decide_true, decide_false, if_true,
    Bool.false_eq_true, if_false, List.map_cons, List.map_nil, List.sum_cons, List.sum_nil]
  ring

/-- A flux density proportional to the parameter. -/
example : ∃ L : ℝ → ℝ, (∀ᶠ s in nhds (2 : ℝ), value (1 / 1000) (1 / 10) (evAt [⟨1, fun x => x, 1⟩] s) s
      = some (L s)) ∧
    HasDerivAt L (deriv (1 / 1000) (1 / 10) (evDeriv [⟨1, fun x => x, 1⟩] 2) 1) 2 :=
  C145_gradient_partial (1 / 1000) (1 / 10) 2 1 [⟨1, fun x => x, 1⟩] (fun s => s)
    (by intro e he; simp only [List.mem_singleton] at he; subst he; exact hasDerivAt_id' 2)
    (hasDerivAt_id' 2)
    (by intro e he; simp only [List.mem_singleton] at he; subst he; intro _; norm_num)
    (by intro e he; simp only [List.mem_singleton] at he; subst he; intro _; norm_num)

/-- A negative flux density beside a good event. -/
example : value (1 / 1000) (1 / 10) [(1, 2), (1, -3)] 3 = none :=
  C145_negative_violates _ _ 1 (-3) _ _ (by simp) (by norm_num) (by norm_num) (by norm_num)

/-- A source dark at its event against one of density one half. -/
example : value (1 / 1000) (1 / 10) [(1, 0)] 0 = some 0 ∧
    ∃ x, value (1 / 1000) (1 / 10) [(1, 1 / 2)] 1 = some x ∧ x < 0 :=
  C145_dark_violates _ _ (by norm_num) (by norm_num) _ _ _ (by simp) (by simp) (by
    intro e he; simp only [List.mem_singleton] at he; subst he; norm_num) (by norm_num)

/-- A parameter. -/
def exP (n : ℕ) (v : ℚ) (fr : Bool) : Par ℕ ℚ := ⟨n, v, 1, 0, 10, fr⟩

/-- A source of two functions with one free parameter each. -/
example : ∃ o', setValues true (new [[exP 0 1 true, exP 1 2 false], [exP 0 3 true]]) [4, 5] = .ok o' () ∧
    getValues true o' = [4, 5] := by
  obtain ⟨o', h1, _, h3, _⟩ := C145_set_get_partial true
    (new [[exP 0 1 true, exP 1 2 false], [exP 0 3 true]]) [4, 5] (sync_param _) (by
      show List.Forall₂ Fits [exP 0 1 true, exP 0 3 true] [4, 5]
      exact .cons (by unfold Fits exP; norm_num) (.cons (by unfold Fits exP; norm_num) .nil))
  exact ⟨o', h1, h3⟩

/-- All parameters of that source. -/
example : setParams (new [[exP 0 1 true, exP 1 2 false], [exP 0 3 true]])
    [exP 0 7 true, exP 1 8 true, exP 0 9 false]
      = .ok ⟨[[exP 0 7 true, exP 1 8 true], [exP 0 9 false]],
          [exP 0 7 true, exP 1 8 true, exP 0 9 false]⟩ () :=
  C145_setParams_partial (new [[exP 0 1 true, exP 1 2 false], [exP 0 3 true]])
    [[exP 0 7 true, exP 1 8 true], [exP 0 9 false]] (sync_param _)
    (.cons (.cons rfl (.cons rfl .nil)) (.cons (.cons rfl .nil) .nil)) (by
      intro ps hps
      simp only [new, sync, List.mem_cons, List.not_mem_nil, or_false] at hps
      rcases hps with rfl | rfl <;> simp [exP])

example : ∃ o', setValues false (new [[exP 0 1 true], [exP 0 3 true]]) [4, 11] = .throws o' ∧
    getValues false o' = [1, 3] := by
  obtain ⟨o', h1, _, h3⟩ := C145_value_exception_violates (exP 0 1 true) (exP 0 3 true) 4 11
    (by unfold Fits exP; norm_num) (by unfold Fits exP; norm_num)
  exact ⟨o', h1, h3⟩

example : setParams (new [[exP 0 1 true], [exP 0 3 true]]) [exP 0 4 true, exP 1 5 true]
    = .throws ⟨[[exP 0 4 true], [exP 0 3 true]], [exP 0 1 true, exP 0 3 true]⟩ :=
  C145_params_exception_violates _ _ _ _ rfl (show (0 : ℕ) ≠ 1 by decide)

example : setValues true (⟨[[exP 0 1 true, exP 1 2 true]],
    (new [[exP 0 1 true, { exP 1 2 true with free := false }]]).param⟩ : Obj ℕ ℚ) [4] = .ub :=
  C145_stale_violates _ _ _ rfl rfl (by unfold Fits exP; norm_num)

end Verif.OneSrc
