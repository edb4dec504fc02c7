import Verif.SrcMap.Model2
import Verif.SrcMap.Spec2
import Mathlib.Tactic.NormNum
/-
C100: what a source map returns about its spectrum is up to date.  The header promises
(SourceMap.h:238-242): "The version of the functions without cached_ will always return
up-to-date information."
-/
set_option linter.unusedSimpArgs false
set_option linter.unusedVariables false
namespace Verif.SrcMap.Spectrum
open Verif

theorem run_cons (e : Env) (st : St) (o : Op) (os : List Op) :
    run e st (o :: os) = run e (step e st o) os := rfl

theorem run_cur (e : Env) : ∀ (ops : List Op) (st : St), (run e st ops).cur = Spec.current st.cur ops
  | [], st => rfl
  | o :: os, st => by
    rw [run_cons, run_cur e os]
    cases o with
    | setPars v => rfl
    | setValues l => rfl
    | setDerivs n => rfl
    | specVals f l => simp only [step, specVals, Spec.current]; split <;> rfl
    | specDerivs n f => simp only [step, specDerivs, Spec.current]; split <;> rfl
    | load => rfl
    | reset => rfl

/-- Asking with force gives the spectrum at the parameters the source has, after every
history. -/
theorem C100_forced_values (e : Env) (v : List ℝ) (ops : List Op) (latch : Bool) :
    (specVals e (run e (fresh e v) ops) true latch).vals = e.spec (Spec.current v ops) := by
  rw [specVals, if_pos (Or.inr rfl)]
  show e.spec (run e (fresh e v) ops).cur = _
  rw [run_cur]; rfl

/-- While the parameters do not change, asking without force gives it too. -/
theorem C100_constant_partial (e : Env) (v : List ℝ) {ops : List Op} (h : Spec.Constant ops)
    (latch : Bool) :
    (specVals e (run e (fresh e v) ops) false latch).vals = e.spec v := by
  have key : ∀ (ops : List Op) (st : St), Spec.Constant ops → st.cur = v →
      (st.vals = [] ∨ st.vals = e.spec v) →
      (run e st ops).cur = v ∧ ((run e st ops).vals = [] ∨ (run e st ops).vals = e.spec v) := by
    intro ops
    induction ops with
    | nil => exact fun st _ h1 h2 => ⟨h1, h2⟩
    | cons o os ih =>
      intro st h h1 h2
      rw [run_cons]
      have hc : Spec.Constant os := fun u hu => h u (List.mem_cons_of_mem _ hu)
      cases o with
      | setPars u => exact absurd List.mem_cons_self (h u)
      | setValues l => exact ih _ hc h1 (Or.inr (by show e.spec st.cur = _; rw [h1]))
      | setDerivs n => exact ih _ hc h1 h2
      | specVals f l =>
        refine ih _ hc ?_ ?_ <;> simp only [step, specVals] <;> split
        · exact h1
        · exact h1
        · exact Or.inr (by show e.spec st.cur = _; rw [h1])
        · exact h2
      | specDerivs n f =>
        refine ih _ hc ?_ ?_ <;> simp only [step, specDerivs] <;> split
        · exact h1
        · exact h1
        · exact h2
        · exact h2
      | load => exact ih _ hc h1 (Or.inr (by show e.spec st.cur = _; rw [h1]))
      | reset => exact ih _ hc h1 (Or.inl rfl)
  obtain ⟨a, b⟩ := key ops (fresh e v) h rfl (Or.inr rfl)
  unfold specVals
  by_cases hx : (run e (fresh e v) ops).vals = [] ∨ false = true
  · rw [if_pos hx]; show e.spec _ = _; rw [a]
  · rw [if_neg hx]; exact b.resolve_left fun h => hx (Or.inl h)

/-- After a change of the parameters the values are those of the old ones. -/
theorem C100_values_violates (e : Env) (u v : List ℝ) (h : e.spec u ≠ []) (latch : Bool) :
    (specVals e (run e (fresh e u) [.setPars v]) false latch).vals = e.spec u := by
  unfold specVals
  rw [if_neg (by rintro (h' | h') <;> [exact h h'; cases h'])]
  rfl

/-- On a map that was read or made, asking for derivatives without force gives none,
however often, for whatever parameters, in every history without `setSpectralDerivs`,
force, or a change of the source. -/
theorem C100_derivatives_violates (e : Env) (he : ∀ v, e.spec v ≠ []) (v : List ℝ)
    {ops : List Op} (h1 : ∀ n, Op.setDerivs n ∉ ops) (h2 : ∀ n, Op.specDerivs n true ∉ ops)
    (h3 : Op.reset ∉ ops) (names : List Nat) :
    (specDerivs e (run e (fresh e v) ops) names false).derivs = [] := by
  have key : ∀ (ops : List Op) (st : St), (∀ n, Op.setDerivs n ∉ ops) →
      (∀ n, Op.specDerivs n true ∉ ops) → Op.reset ∉ ops → st.vals ≠ [] → st.derivs = [] →
      (run e st ops).vals ≠ [] ∧ (run e st ops).derivs = [] := by
    intro ops
    induction ops with
    | nil => exact fun st _ _ _ a b => ⟨a, b⟩
    | cons o os ih =>
      intro st h1 h2 h3 a b
      rw [run_cons]
      have k1 : ∀ n, Op.setDerivs n ∉ os := fun n hn => h1 n (List.mem_cons_of_mem _ hn)
      have k2 : ∀ n, Op.specDerivs n true ∉ os := fun n hn => h2 n (List.mem_cons_of_mem _ hn)
      have k3 : Op.reset ∉ os := fun hn => h3 (List.mem_cons_of_mem _ hn)
      cases o with
      | setPars u => exact ih _ k1 k2 k3 a b
      | setValues l => exact ih _ k1 k2 k3 (he _) b
      | setDerivs n => exact absurd List.mem_cons_self (h1 n)
      | specVals f l =>
        refine ih _ k1 k2 k3 ?_ ?_ <;> simp only [step, specVals] <;> split
        · exact he _
        · exact a
        · exact b
        · exact b
      | specDerivs n f =>
        cases f with
        | true => exact absurd List.mem_cons_self (h2 n)
        | false =>
          have : step e st (.specDerivs n false) = st := by
            simp only [step, specDerivs]
            rw [if_neg (by rintro (h' | h') <;> [exact a h'; cases h'])]
          rw [this]; exact ih _ k1 k2 k3 a b
      | load => exact ih _ k1 k2 k3 (he _) rfl
      | reset => exact absurd List.mem_cons_self h3
  obtain ⟨a, b⟩ := key ops (fresh e v) h1 h2 h3 (he _) rfl
  unfold specDerivs
  rw [if_neg (by rintro (h' | h') <;> [exact a h'; cases h'])]
  exact b

theorem zip_any {a b : List ℝ} (h : a.length = b.length) :
    (open Classical in (List.zip a b).any fun p => decide (p.1 ≠ p.2)) = true ↔ a ≠ b := by
  classical
  induction a generalizing b with
  | nil => cases b <;> simp at h ⊢
  | cons x xs ih =>
    cases b with
    | nil => simp at h
    | cons y ys =>
      simp only [List.length_cons, add_left_inj] at h
      have := ih h
      simp only [List.zip_cons_cons, List.any_cons, Bool.or_eq_true, decide_eq_true_eq, ne_eq,
        List.cons.injEq, not_and_or]
      rw [← ne_eq xs ys, ← this]

/-- A change is reported exactly when a parameter differs from its value at the last
latching, in every history without a change of the source. -/
theorem C100_change_reported (e : Env) (he : ∀ v, e.spec v ≠ []) (v : List ℝ) {ops : List Op}
    (hr : Op.reset ∉ ops) :
    changed (run e (fresh e v) ops) = true ↔ Spec.current v ops ≠ Spec.latched [] v ops := by
  have key : ∀ (ops : List Op) (st : St), Op.reset ∉ ops → st.vals ≠ [] →
      (run e st ops).latched = Spec.latched st.latched st.cur ops := by
    intro ops
    induction ops with
    | nil => exact fun st _ _ => rfl
    | cons o os ih =>
      intro st h a
      rw [run_cons]
      have k : Op.reset ∉ os := fun hn => h (List.mem_cons_of_mem _ hn)
      cases o with
      | setPars u => exact ih { st with cur := u } k a
      | setValues l => rw [ih _ k (he _)]; cases l <;> rfl
      | setDerivs n => exact ih (setDerivs e st n) k a
      | specVals f l =>
        cases f with
        | true =>
          have : step e st (.specVals true l) = setValues e st l := by
            show specVals e st true l = _; rw [specVals, if_pos (Or.inr rfl)]
          rw [this, ih _ k (he _)]; cases l <;> rfl
        | false =>
          have : step e st (.specVals false l) = st := by
            simp only [step, specVals]
            rw [if_neg (by rintro (h' | h') <;> [exact a h'; cases h'])]
          rw [this, ih _ k a]; rfl
      | specDerivs n f =>
        have hl : (step e st (.specDerivs n f)).latched = st.latched ∧
            (step e st (.specDerivs n f)).cur = st.cur ∧
            (step e st (.specDerivs n f)).vals = st.vals := by
          simp only [step, specDerivs]; split <;> exact ⟨rfl, rfl, rfl⟩
        rw [ih _ k (by rw [hl.2.2]; exact a), hl.1, hl.2.1]; rfl
      | load => rw [ih _ k (he _)]; rfl
      | reset => exact absurd List.mem_cons_self h
  have hl := key ops (fresh e v) hr (he _)
  have hc := run_cur e ops (fresh e v)
  have hl' : (run e (fresh e v) ops).latched = Spec.latched [] v ops := hl
  have hc' : (run e (fresh e v) ops).cur = Spec.current v ops := hc
  unfold changed
  rw [hl', hc']
  by_cases hx : (Spec.current v ops).length ≠ (Spec.latched [] v ops).length
  · rw [if_pos hx]
    exact ⟨fun _ h => hx (by rw [h]), fun _ => rfl⟩
  · rw [if_neg hx]
    exact zip_any (not_not.1 hx)

/-- A history with everything in it; the parameters at its end are `[3]`, latched `[2]`. -/
example : Spec.current [1] [.specVals false true, .setPars [2], .setValues true, .load,
      .specDerivs [0] false, .setPars [3]] = [3] ∧
    Spec.latched [] [1] [.specVals false true, .setPars [2], .setValues true, .load,
      .specDerivs [0] false, .setPars [3]] = [2] ∧
    Spec.Constant [.load, .reset, .specVals false false] := by
  refine ⟨rfl, rfl, fun v h => ?_⟩
  simp at h

/-- A spectrum that depends on its parameters and is never empty. -/
example : ∃ e : Env, (∀ v, e.spec v ≠ []) ∧ e.spec [1] ≠ e.spec [2] ∧ e.deriv [0] [1] ≠ [] :=
  ⟨⟨fun v => [v.sum], fun _ v => [v]⟩, fun v => by simp, by norm_num, by simp⟩

end Verif.SrcMap.Spectrum
