import Verif.OneSrc.Model
import Verif.OneSrc.Spec
import Verif.SrcModel.Lemmas
import Mathlib.Analysis.SpecialFunctions.Log.Deriv
import Mathlib.Analysis.Calculus.Deriv.Add
import Mathlib.Analysis.Calculus.Deriv.Mul
import Mathlib.Tactic.Linarith
import Mathlib.Tactic.Ring

set_option linter.unusedSectionVars false
set_option linter.unusedSimpArgs false
set_option linter.unusedVariables false

namespace Verif.OneSrc

open SrcModel (Out Par funSetValues funSetParam count sel Fits Same)
open Spec

theorem valueLoop_ok (epsw epsf : ℝ) : ∀ (es : List (ℝ × ℝ)) (val : ℝ),
    (∀ e ∈ es, Used epsw epsf e.1 e.2 → 0 < e.2) →
    valueLoop epsw epsf es val = some (val + logLike epsw epsf es 0) := by
  intro es
  induction es with
  | nil => intro val _; simp [valueLoop, logLike]
  | cons e es ih =>
    intro val h
    obtain ⟨w, q⟩ := e
    have hes : ∀ e ∈ es, Used epsw epsf e.1 e.2 → 0 < e.2 := fun e he => h e (List.mem_cons_of_mem _ he)
    rw [valueLoop]
    by_cases hw : epsw < w
    · rw [if_pos hw]
      by_cases hq : epsf < |q|
      · rw [if_pos hq]
        have hpos : 0 < q := h (w, q) (List.mem_cons_self) ⟨hw, hq⟩
        have hu : Used epsw epsf w q := ⟨hw, hq⟩
        simp only [vlog, if_pos hpos]
        rw [ih _ hes]
        simp only [logLike, List.filter_cons, hu, decide_true, if_true, List.map_cons, List.sum_cons]
        congr 1; ring
      · rw [if_neg hq, ih _ hes]
        have hu : ¬ Used epsw epsf w q := fun h => hq h.2
        simp only [logLike, List.filter_cons, hu, decide_false, Bool.false_eq_true, if_false]
    · rw [if_neg hw, ih _ hes]
      have hu : ¬ Used epsw epsf w q := fun h => hw h.1
      simp only [logLike, List.filter_cons, hu, decide_false, Bool.false_eq_true, if_false]

theorem valueLoop_none (epsw epsf : ℝ) (w q : ℝ) (hw : epsw < w) (hq : epsf < |q|) (hn : q < 0) :
    ∀ (es : List (ℝ × ℝ)) (val : ℝ), (w, q) ∈ es → valueLoop epsw epsf es val = none := by
  intro es
  induction es with
  | nil => intro val h; simp at h
  | cons e es ih =>
    intro val h
    obtain ⟨w', q'⟩ := e
    rw [valueLoop]
    rcases List.mem_cons.1 h with h | h
    · cases h
      rw [if_pos hw, if_pos hq]
      simp only [vlog, if_neg (not_lt.2 hn.le)]
    · by_cases hw' : epsw < w'
      · rw [if_pos hw']
        by_cases hq' : epsf < |q'|
        · rw [if_pos hq']
          cases hv : vlog q' with
          | none => rfl
          | some l => simp only; exact ih _ h
        · rw [if_neg hq']; exact ih _ h
      · rw [if_neg hw']; exact ih _ h

theorem derivLoop_acc (epsw epsf : ℝ) : ∀ (es : List (ℝ × ℝ × ℝ)) (d : ℝ),
    derivLoop epsw epsf es d = d + derivLoop epsw epsf es 0 := by
  intro es
  induction es with
  | nil => intro d; simp [derivLoop]
  | cons e es ih =>
    intro d
    obtain ⟨w, q, v⟩ := e
    rw [derivLoop, derivLoop]
    by_cases hw : epsw < w
    · rw [if_pos hw, if_pos hw]
      by_cases hq : epsf < |q|
      · rw [if_pos hq, if_pos hq, ih, ih (0 + _)]; ring
      · rw [if_neg hq, if_neg hq, ih]
    · rw [if_neg hw, if_neg hw, ih]

open Filter Topology in
theorem loop_deriv (epsw epsf : ℝ) (t : ℝ) : ∀ (es : List Ev),
    (∀ e ∈ es, HasDerivAt e.q e.v t) →
    (∀ e ∈ es, epsw < e.w → |e.q t| ≠ epsf) →
    (∀ e ∈ es, Used epsw epsf e.w (e.q t) → 0 < e.q t) →
    (∀ᶠ s in 𝓝 t, ∀ e ∈ evAt es s, Used epsw epsf e.1 e.2 → 0 < e.2) ∧
      HasDerivAt (fun s => logLike epsw epsf (evAt es s) 0) (derivLoop epsw epsf (evDeriv es t) 0) t := by
  intro es
  induction es with
  | nil =>
    intro _ _ _
    refine ⟨by simp [evAt], ?_⟩
    simpa [evAt, logLike, evDeriv, derivLoop] using hasDerivAt_const t (0 : ℝ)
  | cons e es ih =>
    intro hd hne hpos
    obtain ⟨i1, i2⟩ := ih (fun e he => hd e (List.mem_cons_of_mem _ he))
      (fun e he => hne e (List.mem_cons_of_mem _ he)) (fun e he => hpos e (List.mem_cons_of_mem _ he))
    have hde := hd e List.mem_cons_self
    have hce : ContinuousAt e.q t := hde.continuousAt
    have habs : ContinuousAt (fun s => |e.q s|) t := hce.abs
    by_cases hw : epsw < e.w
    · by_cases hq : epsf < |e.q t|
      · have hp := hpos e List.mem_cons_self ⟨hw, hq⟩
        have ev1 : ∀ᶠ s in 𝓝 t, epsf < |e.q s| := habs.eventually (lt_mem_nhds hq)
        have ev2 : ∀ᶠ s in 𝓝 t, 0 < e.q s := hce.eventually (lt_mem_nhds hp)
        refine ⟨?_, ?_⟩
        · filter_upwards [i1, ev2] with s h1 h2 e' he'
          simp only [evAt, List.map_cons, List.mem_cons] at he'
          rcases he' with rfl | he'
          · intro _; exact h2
          · exact h1 e' he'
        · have key : (fun s => logLike epsw epsf (evAt (e :: es) s) 0) =ᶠ[𝓝 t]
              fun s => e.w * Real.log (e.q s) + logLike epsw epsf (evAt es s) 0 := by
            filter_upwards [ev1] with s h1
            have hu : Used epsw epsf e.w (e.q s) := ⟨hw, h1⟩
            simp only [logLike, evAt, List.map_cons, List.filter_cons, hu, decide_true, if_true,
              List.sum_cons]
            ring
          refine HasDerivAt.congr_of_eventuallyEq ?_ key
          have hl := (hde.log hp.ne').const_mul e.w
          refine (hl.add i2).congr_deriv ?_
          simp only [evDeriv, List.map_cons]
          rw [derivLoop, if_pos hw, if_pos hq, derivLoop_acc _ _ _ (0 + _)]
          ring
      · have hlt : |e.q t| < epsf := lt_of_le_of_ne (not_lt.1 hq) (hne e List.mem_cons_self hw)
        have ev1 : ∀ᶠ s in 𝓝 t, |e.q s| < epsf := habs.eventually (gt_mem_nhds hlt)
        refine ⟨?_, ?_⟩
        · filter_upwards [i1, ev1] with s h1 h2 e' he'
          simp only [evAt, List.map_cons, List.mem_cons] at he'
          rcases he' with rfl | he'
          · intro hu; exact absurd hu.2 (not_lt.2 h2.le)
          · exact h1 e' he'
        · have key : (fun s => logLike epsw epsf (evAt (e :: es) s) 0) =ᶠ[𝓝 t]
              fun s => logLike epsw epsf (evAt es s) 0 := by
            filter_upwards [ev1] with s h1
            have hu : ¬ Used epsw epsf e.w (e.q s) := fun h => absurd h.2 (not_lt.2 h1.le)
            simp only [logLike, evAt, List.map_cons, List.filter_cons, hu, decide_false,
              Bool.false_eq_true, if_false]
          refine (HasDerivAt.congr_of_eventuallyEq i2 key).congr_deriv ?_
          simp only [evDeriv, List.map_cons]
          rw [derivLoop, if_pos hw, if_neg hq]
    · have hu : ∀ s, ¬ Used epsw epsf e.w (e.q s) := fun s h => hw h.1
      refine ⟨?_, ?_⟩
      · filter_upwards [i1] with s h1 e' he'
        simp only [evAt, List.map_cons, List.mem_cons] at he'
        rcases he' with rfl | he'
        · intro h; exact absurd h (hu s)
        · exact h1 e' he'
      · have key : (fun s => logLike epsw epsf (evAt (e :: es) s) 0)
            = fun s => logLike epsw epsf (evAt es s) 0 := by
          funext s
          simp only [logLike, evAt, List.map_cons, List.filter_cons, hu, decide_false,
            Bool.false_eq_true, if_false]
        rw [key]
        refine i2.congr_deriv ?_
        simp only [evDeriv, List.map_cons]
        rw [derivLoop, if_neg hw]

/-! ### Parameters -/

variable {κ K : Type}

theorem foldl_flatten (l : List (List (Par κ K))) : ∀ (a : List (Par κ K)),
    l.foldl (fun l ps => l ++ ps) a = a ++ l.flatten := by
  induction l with
  | nil => intro a; simp
  | cons x l ih => intro a; simp [ih]

theorem sync_param (o : Obj κ K) : (sync o).param = o.funs.flatten := by
  simp [sync, foldl_flatten]

variable [LinearOrder κ] [Field K] [LinearOrder K] [IsStrictOrderedRing K]

theorem setLoop_ok (f : Bool) (r : List K) : ∀ (fs : List (List (Par κ K))) (vs : List K),
    List.Forall₂ Fits (sel f fs.flatten) vs →
    ∃ fs', setLoop f fs (vs ++ r) = .ok fs' r ∧
      List.Forall₂ (List.Forall₂ (Same f)) fs fs' ∧
      (sel f fs'.flatten).map (·.value) = vs := by
  intro fs
  induction fs with
  | nil =>
    intro vs h
    rw [List.flatten_nil, SrcModel.sel_nil] at h; cases h
    exact ⟨[], rfl, .nil, by rw [List.flatten_nil, SrcModel.sel_nil]; rfl⟩
  | cons ps fs ih =>
    intro vs h
    rw [List.flatten_cons, SrcModel.sel_append] at h
    obtain ⟨v1, v2, rfl, h1, h2⟩ := SrcModel.forall₂_append_left h
    obtain ⟨ps', g1, g2, g3⟩ := SrcModel.funSetValues_ok f (v2 ++ r) ps v1 h1
    obtain ⟨fs', k1, k2, k3⟩ := ih v2 h2
    refine ⟨ps' :: fs', ?_, .cons g2 k2, ?_⟩
    · rw [setLoop, List.append_assoc, g1]
      simp only
      rw [k1]
    · rw [List.flatten_cons, SrcModel.sel_append, List.map_append, g3, k3]

theorem funSetParam_at (q : Par κ K) (a b : List (Par κ K)) (p : Par κ K) (hn : p.name = q.name)
    (ha : ∀ x ∈ a, x.name ≠ q.name) : funSetParam q (a ++ p :: b) = some (a ++ q :: b) := by
  induction a with
  | nil => simp [funSetParam, hn]
  | cons x a ih =>
    have hx : x.name ≠ q.name := ha x List.mem_cons_self
    have := ih (fun y hy => ha y (List.mem_cons_of_mem _ hy))
    simp only [List.cons_append, funSetParam, if_neg hx, this, Option.map_some]

theorem setOne_ok (rest : List (Par κ K)) : ∀ (b qs a : List (Par κ K)),
    List.Forall₂ (fun p q => p.name = q.name) b qs → ((a ++ b).map (·.name)).Nodup →
    setOne b.length (a ++ b) (qs ++ rest) = .ok (a ++ qs) rest := by
  intro b
  induction b with
  | nil =>
    intro qs a h _
    cases h
    simp [setOne]
  | cons p b ih =>
    intro qs a h hnd
    cases h with
    | cons h1 h2 =>
      rename_i q qs
      have ha : ∀ x ∈ a, x.name ≠ q.name := by
        intro x hx he
        rw [List.map_append, List.nodup_append] at hnd
        exact hnd.2.2 x.name (List.mem_map_of_mem hx) p.name (by simp) (he.trans h1.symm)
      have hf := funSetParam_at q a b p h1 ha
      rw [List.length_cons, List.cons_append, setOne, hf]
      simp only
      have := ih qs (a ++ [q]) h2 (by
        have : ((a ++ [q] ++ b).map (·.name)) = ((a ++ p :: b).map (·.name)) := by simp [h1]
        rw [this]; exact hnd)
      simpa using this

theorem setAll_ok : ∀ (fs qss : List (List (Par κ K))),
    List.Forall₂ (List.Forall₂ (fun p q => p.name = q.name)) fs qss →
    (∀ ps ∈ fs, (ps.map (·.name)).Nodup) → setAll fs qss.flatten = .ok qss () := by
  intro fs
  induction fs with
  | nil => intro qss h _; cases h; rfl
  | cons ps fs ih =>
    intro qss h hnd
    cases h with
    | cons h1 h2 =>
      rename_i qs qss
      have g := setOne_ok qss.flatten ps qs [] h1 (by simpa using hnd ps List.mem_cons_self)
      simp only [List.nil_append] at g
      rw [setAll, List.flatten_cons, g]
      simp only
      rw [ih qss h2 (fun p hp => hnd p (List.mem_cons_of_mem _ hp))]

end Verif.OneSrc
