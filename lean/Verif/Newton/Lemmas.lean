import Verif.Newton.Model
import Mathlib.Tactic.Linarith
import Mathlib.Tactic.Ring
import Mathlib.Tactic.NormNum
set_option linter.unusedSimpArgs false
set_option linter.unusedVariables false
namespace Verif.Newton

/-- All components are non-negative. -/
def NonNeg (l : List ℝ) : Prop := ∀ x ∈ l, 0 ≤ x

theorem nonNeg_cons {a : ℝ} {l : List ℝ} : NonNeg (a :: l) ↔ 0 ≤ a ∧ NonNeg l := by
  simp [NonNeg]

theorem nonNeg_nil : NonNeg [] := by simp [NonNeg]

theorem nonNeg_sub_protect : ∀ (ds ns gs : List ℝ), NonNeg ns →
    NonNeg (sub ns (protect ds ns gs).1)
  | [], ns, gs, _ => by cases ns <;> simp [protect, sub, NonNeg]
  | _ :: _, [], gs, _ => by simp [protect, sub, NonNeg]
  | _ :: _, _ :: _, [], _ => by simp [protect, sub, NonNeg]
  | d :: ds, n :: ns, g :: gs, h => by
    have h' := nonNeg_cons.1 h
    have ih := nonNeg_sub_protect ds ns gs h'.2
    unfold sub at ih ⊢
    rw [protect]; simp only
    by_cases hd : n < d
    · rw [if_pos hd]
      simp only [List.zipWith_cons_cons]
      refine nonNeg_cons.2 ⟨?_, ih⟩
      have := h'.1; norm_num; linarith
    · rw [if_neg hd]
      simp only [List.zipWith_cons_cons]
      exact nonNeg_cons.2 ⟨by linarith, ih⟩

theorem nonNeg_sub_retry : ∀ (ds ns : List ℝ), NonNeg ns →
    NonNeg (sub ns (protectRetry ds ns))
  | [], ns, _ => by cases ns <;> simp [protectRetry, sub, NonNeg]
  | _ :: _, [], _ => by simp [protectRetry, sub, NonNeg]
  | d :: ds, n :: ns, h => by
    have h' := nonNeg_cons.1 h
    have ih := nonNeg_sub_retry ds ns h'.2
    unfold sub at ih ⊢
    rw [protectRetry, List.zipWith_cons_cons]
    refine nonNeg_cons.2 ⟨?_, ih⟩
    split
    · linarith [h'.1]
    · linarith

theorem nonNeg_sub_damped : ∀ (ds ns gs : List ℝ), NonNeg ns →
    NonNeg (sub ns (protectDamped ds ns gs).1)
  | [], ns, gs, _ => by cases ns <;> simp [protectDamped, sub, NonNeg]
  | _ :: _, [], gs, _ => by simp [protectDamped, sub, NonNeg]
  | _ :: _, _ :: _, [], _ => by simp [protectDamped, sub, NonNeg]
  | d :: ds, n :: ns, g :: gs, h => by
    have h' := nonNeg_cons.1 h
    have ih := nonNeg_sub_damped ds ns gs h'.2
    unfold sub at ih ⊢
    rw [protectDamped]; simp only
    by_cases hd : n - d < 0
    · rw [if_pos hd]
      simp only [List.zipWith_cons_cons]
      refine nonNeg_cons.2 ⟨?_, ih⟩
      have h1 : min (0.9999 * n) (n - 0) ≤ n - 0 := min_le_right _ _
      linarith
    · rw [if_neg hd]
      simp only [List.zipWith_cons_cons]
      exact nonNeg_cons.2 ⟨by linarith, ih⟩

theorem undamped_nonNeg {env : Env} {h : List (List ℝ)} {g norms delta : List ℝ} {edm : ℝ}
    (hn : NonNeg norms) (hd : undamped env h g norms = .inr (delta, edm)) :
    NonNeg (sub norms delta) := by
  unfold undamped at hd
  simp only at hd
  split at hd
  · simp at hd
  · split at hd
    · simp only [Sum.inr.injEq, Prod.mk.injEq] at hd
      rw [← hd.1]; exact nonNeg_sub_retry _ _ hn
    · simp only [Sum.inr.injEq, Prod.mk.injEq] at hd
      rw [← hd.1]; exact nonNeg_sub_protect _ _ _ hn

theorem damped_nonNeg {env : Env} {h : List (List ℝ)} {g norms delta : List ℝ} {lambda edm : ℝ}
    (hn : NonNeg norms) (hd : damped env h g norms lambda = .inr (delta, edm)) :
    NonNeg (sub norms delta) := by
  unfold damped at hd
  simp only at hd
  split at hd
  · simp at hd
  · split at hd
    · split at hd
      · simp at hd
      · simp only [Sum.inr.injEq, Prod.mk.injEq] at hd
        rw [← hd.1]; exact nonNeg_sub_damped _ _ _ hn
    · simp only [Sum.inr.injEq, Prod.mk.injEq] at hd
      rw [← hd.1]; exact nonNeg_sub_damped _ _ _ hn

/-- The state at which the loop was left. -/
def Exit.st : Exit → St
  | .ret _ s => s
  | .done s _ => s

theorem loop_nonNeg (env : Env) (tol : ℝ) : ∀ (n : Nat) (s : St) (e : Exit),
    NonNeg s.norms → newtonLoop env tol n s = .ok e → NonNeg e.st.norms
  | 0, s, e, hs, h => by
    simp only [newtonLoop, Res.ok.injEq] at h
    rw [← h]; exact hs
  | n + 1, s, e, hs, h => by
    rw [newtonLoop] at h
    split at h
    · simp only [Res.ok.injEq] at h; rw [← h]; exact hs
    · obtain ⟨⟨g, hess⟩, hgh, h⟩ := Res.bind_eq_ok.1 h
      simp only at h
      split at h
      · simp only [Res.ok.injEq] at h; rw [← h]; exact hs
      · rename_i delta edm hde
        split at h
        · rename_i hl
          rw [if_pos hl] at hde
          have hnn := damped_nonNeg hs hde
          obtain ⟨l, hll, h⟩ := Res.bind_eq_ok.1 h
          have hs' : NonNeg (if decide (s.logLike < l) = true
            then (⟨sub s.norms delta, l, max 1e-8 (s.lambda / 5), edm⟩ : St)
            else ⟨s.norms, s.logLike, s.lambda * 3, edm⟩).norms := by
            split
            · exact hnn
            · exact hs
          generalize (if decide (s.logLike < l) = true
            then (⟨sub s.norms delta, l, max 1e-8 (s.lambda / 5), edm⟩ : St)
            else ⟨s.norms, s.logLike, s.lambda * 3, edm⟩) = s' at h hs'
          split at h
          · simp only [Res.ok.injEq] at h; rw [← h]; exact hs'
          · split at h
            · simp only [Res.ok.injEq] at h; rw [← h]; exact hs'
            · exact loop_nonNeg env tol n _ e hs' h
        · rename_i hl
          rw [if_neg hl] at hde
          have hnn := undamped_nonNeg hs hde
          split at h
          · simp only [Res.ok.injEq] at h; rw [← h]; exact hnn
          · split at h
            · simp only [Res.ok.injEq] at h; rw [← h]; exact hnn
            · exact loop_nonNeg env tol n _ e hnn h

theorem nonNeg_set {l : List ℝ} {i : Nat} (h : NonNeg l) : NonNeg (l.set i 0) := by
  intro x hx
  rcases List.mem_or_eq_of_mem_set hx with h' | h'
  · exact h x h'
  · exact h' ▸ le_rfl

/-- Two environments that differ only in what they say about vectors with a negative
component. -/
structure AgreeNonNeg (a b : Env) : Prop where
  total : a.dataTotal = b.dataTotal
  invert : a.invert = b.invert
  svd : a.svdSolve = b.svdSolve
  ll : ∀ n, NonNeg n → a.ll n = b.ll n
  gh : ∀ n, NonNeg n → a.gh n = b.gh n

theorem undamped_agree {a b : Env} (hab : AgreeNonNeg a b) : undamped a = undamped b := by
  funext h g n; simp [undamped, hab.invert]

theorem damped_agree {a b : Env} (hab : AgreeNonNeg a b) : damped a = damped b := by
  funext h g n l; simp [damped, hab.svd]

theorem loop_agree {a b : Env} (hab : AgreeNonNeg a b) (tol : ℝ) : ∀ (n : Nat) (s : St),
    NonNeg s.norms → newtonLoop a tol n s = newtonLoop b tol n s
  | 0, s, _ => by simp [newtonLoop]
  | n + 1, s, hs => by
    rw [newtonLoop, newtonLoop, hab.gh _ hs, undamped_agree hab, damped_agree hab]
    split
    · rfl
    · cases hgh : b.gh s.norms with
      | throws => simp
      | ub => simp
      | ok gh =>
        obtain ⟨g, hess⟩ := gh
        simp only [Res.bind_ok]
        by_cases hl : 0 < s.lambda
        · simp only [if_pos hl]
          cases hde : damped b hess g s.norms s.lambda with
          | inl c => rfl
          | inr de =>
            obtain ⟨delta, edm⟩ := de
            have hnn := damped_nonNeg hs hde
            simp only [hab.ll _ hnn]
            cases hll : b.ll (sub s.norms delta) with
            | throws => simp
            | ub => simp
            | ok l =>
              simp only [Res.bind_ok]
              have hs' : NonNeg (if decide (s.logLike < l) = true
            then (⟨sub s.norms delta, l, max 1e-8 (s.lambda / 5), edm⟩ : St)
            else ⟨s.norms, s.logLike, s.lambda * 3, edm⟩).norms := by
                split
                · exact hnn
                · exact hs
              generalize (if decide (s.logLike < l) = true
            then (⟨sub s.norms delta, l, max 1e-8 (s.lambda / 5), edm⟩ : St)
            else ⟨s.norms, s.logLike, s.lambda * 3, edm⟩) = s' at hs' ⊢
              split
              · rfl
              · split
                · rfl
                · exact loop_agree hab tol n _ hs'
        · simp only [if_neg hl]
          cases hde : undamped b hess g s.norms with
          | inl c => rfl
          | inr de =>
            obtain ⟨delta, edm⟩ := de
            have hnn := undamped_nonNeg hs hde
            simp only
            split
            · rfl
            · split
              · rfl
              · exact loop_agree hab tol n _ hnn

/-! ### log-likelihood bookkeeping -/

theorem loop_damped (env : Env) (tol l0 : ℝ) : ∀ (n : Nat) (s : St) (e : Exit),
    0 < s.lambda → env.ll s.norms = .ok s.logLike → l0 ≤ s.logLike →
    newtonLoop env tol n s = .ok e →
    0 < e.st.lambda ∧ env.ll e.st.norms = .ok e.st.logLike ∧ l0 ≤ e.st.logLike
  | 0, s, e, h1, h2, h3, h => by
    simp only [newtonLoop, Res.ok.injEq] at h
    rw [← h]; exact ⟨h1, h2, h3⟩
  | n + 1, s, e, h1, h2, h3, h => by
    rw [newtonLoop] at h
    split at h
    · simp only [Res.ok.injEq] at h; rw [← h]; exact ⟨h1, h2, h3⟩
    · obtain ⟨⟨g, hess⟩, hgh, h⟩ := Res.bind_eq_ok.1 h
      simp only [if_pos h1] at h
      split at h
      · simp only [Res.ok.injEq] at h; rw [← h]; exact ⟨h1, h2, h3⟩
      · rename_i delta edm hde
        obtain ⟨l, hll, h⟩ := Res.bind_eq_ok.1 h
        have hs' : ∀ s', s' = (if decide (s.logLike < l) = true
            then (⟨sub s.norms delta, l, max 1e-8 (s.lambda / 5), edm⟩ : St)
            else ⟨s.norms, s.logLike, s.lambda * 3, edm⟩) →
            0 < s'.lambda ∧ env.ll s'.norms = .ok s'.logLike ∧ l0 ≤ s'.logLike := by
          rintro s' rfl
          by_cases hb : s.logLike < l
          · simp only [hb, decide_true, if_true]
            refine ⟨lt_max_of_lt_left (by norm_num), hll, by linarith⟩
          · simp only [hb, decide_false, Bool.false_eq_true, if_false]
            exact ⟨by linarith, h2, h3⟩
        have hs'' := hs' _ rfl
        generalize (if decide (s.logLike < l) = true
            then (⟨sub s.norms delta, l, max 1e-8 (s.lambda / 5), edm⟩ : St)
            else ⟨s.norms, s.logLike, s.lambda * 3, edm⟩) = s' at h hs''
        split at h
        · simp only [Res.ok.injEq] at h; rw [← h]; exact hs''
        · split at h
          · simp only [Res.ok.injEq] at h; rw [← h]; exact hs''
          · obtain ⟨a, b, c⟩ := hs''
            exact loop_damped env tol l0 n _ e a b c h

/-- Without damping `lambda` and the log-likelihood variable are not touched. -/
theorem loop_undamped (env : Env) (tol : ℝ) : ∀ (n : Nat) (s : St) (e : Exit),
    s.lambda ≤ 0 → newtonLoop env tol n s = .ok e →
    e.st.lambda = s.lambda ∧ (∀ c s', e = .ret c s' → c ≠ 0)
  | 0, s, e, h1, h => by
    simp only [newtonLoop, Res.ok.injEq] at h
    rw [← h]; exact ⟨rfl, by simp⟩
  | n + 1, s, e, h1, h => by
    rw [newtonLoop] at h
    split at h
    · simp only [Res.ok.injEq] at h; rw [← h]; exact ⟨rfl, by simp⟩
    · obtain ⟨⟨g, hess⟩, hgh, h⟩ := Res.bind_eq_ok.1 h
      have hl : ¬ 0 < s.lambda := not_lt.2 h1
      simp only [if_neg hl] at h
      split at h
      · rename_i c hc
        simp only [Res.ok.injEq] at h; rw [← h]
        refine ⟨rfl, ?_⟩
        rintro c' s' hcs
        simp only [Exit.ret.injEq] at hcs
        rw [← hcs.1]
        unfold undamped at hc
        simp only at hc
        split at hc
        · rename_i hne
          simp only [Sum.inl.injEq] at hc
          rw [← hc]; exact hne
        · split at hc <;> simp at hc
      · rename_i delta edm hde
        split at h
        · simp only [Res.ok.injEq] at h; rw [← h]
          refine ⟨rfl, ?_⟩
          rintro c' s' hcs
          simp only [Exit.ret.injEq] at hcs
          rw [← hcs.1]; decide
        · split at h
          · simp only [Res.ok.injEq] at h; rw [← h]; exact ⟨rfl, by simp⟩
          · exact loop_undamped env tol n ⟨sub s.norms delta, s.logLike, s.lambda, edm⟩ e h1 h

/-- The last step of an undamped fit that ended by itself. -/
theorem loop_last_step (env : Env) (tol : ℝ) : ∀ (n : Nat) (s s' : St),
    s.lambda ≤ 0 → ¬ |s.edm| ≤ tol → NonNeg s.norms →
    newtonLoop env tol n s = .ok (.done s' false) →
    ∃ prev g h delta edm, NonNeg prev ∧ env.gh prev = .ok (g, h) ∧
      undamped env h g prev = .inr (delta, edm) ∧ s'.norms = sub prev delta ∧ |edm| ≤ tol
  | 0, s, s', h1, h2, h3, h => by simp [newtonLoop] at h
  | n + 1, s, s', h1, h2, h3, h => by
    rw [newtonLoop, if_neg h2] at h
    obtain ⟨⟨g, hess⟩, hgh, h⟩ := Res.bind_eq_ok.1 h
    have hl : ¬ 0 < s.lambda := not_lt.2 h1
    simp only [if_neg hl] at h
    split at h
    · simp at h
    · rename_i delta edm hde
      have hnn := undamped_nonNeg h3 hde
      split at h
      · simp at h
      · split at h
        · rename_i hlt
          simp only [Res.ok.injEq, Exit.done.injEq] at h
          refine ⟨s.norms, g, hess, delta, edm, h3, hgh, hde, ?_, le_of_lt hlt⟩
          rw [← h.1]
        · by_cases he : |edm| ≤ tol
          · -- the loop condition fails at the next turn
            cases n with
            | zero => simp [newtonLoop] at h
            | succ n =>
              rw [newtonLoop, if_pos he] at h
              simp only [Res.ok.injEq, Exit.done.injEq] at h
              refine ⟨s.norms, g, hess, delta, edm, h3, hgh, hde, ?_, he⟩
              rw [← h.1]
          · exact loop_last_step env tol n ⟨sub s.norms delta, s.logLike, s.lambda, edm⟩ s' h1 he hnn h

end Verif.Newton
