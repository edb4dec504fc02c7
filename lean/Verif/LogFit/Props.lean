import Verif.LogFit.Model
import Verif.LogFit.Spec
import Verif.FitUtils.Props
import Mathlib.Analysis.SpecialFunctions.ExpDeriv
import Mathlib.Analysis.SpecialFunctions.Log.Deriv
import Mathlib.Analysis.Complex.ExponentialBounds
import Mathlib.Tactic.Linarith
import Mathlib.Tactic.Ring
import Mathlib.Tactic.FieldSimp
import Mathlib.Tactic.NormNum
/-
C130: fits in the logarithms of normalizations.
-/
set_option linter.unusedSectionVars false
set_option linter.unusedSimpArgs false
set_option linter.unusedVariables false
namespace Verif.LogFit
open Spec
open Newton (protect protectRetry)

/-! ### Lemmas -/

theorem Ln_exp_bounds {l : Ln} {x : ℝ} (hd : ¬ l.diverged) (h : l.exp = some x) : Real.exp (-20) ≤ x ∧ x ≤ Real.exp 20 := by
  cases l with
  | num u =>
    simp only [Ln.exp, Option.some.injEq] at h
    simp only [Ln.diverged, not_lt] at hd
    rw [← h]
    have := abs_le.1 hd
    exact ⟨Real.exp_le_exp.2 this.1, Real.exp_le_exp.2 this.2⟩
  | negInf => exact absurd trivial hd
  | nan => cases h

theorem mapM_forall {α β : Type} {f : α → Option β} {P : α → Prop} {Q : β → Prop} (hPQ : ∀ a b, P a → f a = some b → Q b) :
    ∀ {l : List α} {r : List β}, l.mapM f = some r → (∀ a ∈ l, P a) → ∀ b ∈ r, Q b
  | [], r, h, _ => by
    simp only [List.mapM_nil, Option.pure_def, Option.some.injEq] at h
    subst h; intro b hb; cases hb
  | a :: l, r, h, hp => by
    rw [List.mapM_cons] at h
    obtain ⟨b, hb, h⟩ := Option.bind_eq_some_iff.1 h
    obtain ⟨bs, hbs, h⟩ := Option.bind_eq_some_iff.1 h
    simp only [Option.pure_def, Option.some.injEq] at h
    subst h
    intro x hx
    rcases List.mem_cons.1 hx with rfl | hx
    · exact hPQ a x (hp a List.mem_cons_self) hb
    · exact mapM_forall hPQ hbs (fun a ha => hp a (List.mem_cons_of_mem _ ha)) x hx

theorem mapM_getElem? {α β : Type} {f : α → Option β} : ∀ {l : List α} {r : List β}, l.mapM f = some r → ∀ {i : Nat} {b : β},
    r[i]? = some b → ∃ a, l[i]? = some a ∧ f a = some b
  | [], r, h, i, b, hb => by
    simp only [List.mapM_nil, Option.pure_def, Option.some.injEq] at h
    subst h; simp at hb
  | a :: l, r, h, i, b, hb => by
    rw [List.mapM_cons] at h
    obtain ⟨b0, hb0, h⟩ := Option.bind_eq_some_iff.1 h
    obtain ⟨bs, hbs, h⟩ := Option.bind_eq_some_iff.1 h
    simp only [Option.pure_def, Option.some.injEq] at h
    subst h
    cases i with
    | zero =>
      simp only [List.getElem?_cons_zero, Option.some.injEq] at hb
      subst hb
      exact ⟨a, rfl, hb0⟩
    | succ i =>
      simp only [List.getElem?_cons_succ] at hb ⊢
      exact mapM_getElem? hbs hb

theorem mapM_length {α β : Type} {f : α → Option β} : ∀ {l : List α} {r : List β}, l.mapM f = some r → r.length = l.length
  | [], r, h => by
    simp only [List.mapM_nil, Option.pure_def, Option.some.injEq] at h
    subst h; rfl
  | a :: l, r, h => by
    rw [List.mapM_cons] at h
    obtain ⟨b0, hb0, h⟩ := Option.bind_eq_some_iff.1 h
    obtain ⟨bs, hbs, h⟩ := Option.bind_eq_some_iff.1 h
    simp only [Option.pure_def, Option.some.injEq] at h
    subst h
    rw [List.length_cons, List.length_cons, mapM_length hbs]

theorem checks_next {logs : List Ln} {c : List (List ℝ)} {edm : ℝ} {s : St} (h : checks logs c edm = .next s) :
    (∀ x ∈ s.norms, Real.exp (-20) ≤ x ∧ x ≤ Real.exp 20) ∧ s.edm = edm ∧ s.covar = scaleCovar c s.norms ∧
      logs.mapM Ln.exp = some s.norms := by
  unfold checks at h
  split at h
  · cases h
  · rename_i hd
    cases hm : logs.mapM Ln.exp with
    | none => rw [hm] at h; cases h
    | some n =>
      rw [hm] at h
      cases h
      refine ⟨mapM_forall (P := fun l => ¬ l.diverged) (fun a b ha hb => Ln_exp_bounds ha hb) hm ?_, rfl, rfl, rfl⟩
      intro a ha hda
      exact hd ⟨a, ha, hda⟩

theorem iteration_next {o : Objective} {n : List ℝ} {s : St} (h : iteration o n = .ok (.next s)) :
    ∃ g hess c, o.gh n = .ok (g, hess) ∧ o.invert (scaleHess n hess) = (0, c) ∧
      checks (List.zipWith Ln.sub (n.map clog) (delta c (scaleGrad n g) n).1) c (delta c (scaleGrad n g) n).2 = .next s := by
  unfold iteration at h
  obtain ⟨⟨g, hess⟩, hg, h⟩ := Res.bind_eq_ok.1 h
  simp only at h
  split at h
  · cases h
  · rename_i hf
    have hf := not_not.1 hf
    simp only [Res.ok.injEq] at h
    refine ⟨g, hess, (o.invert (scaleHess n hess)).2, hg, ?_, h⟩
    rw [← hf]

/-- The last iteration of a loop that was left with results. -/
theorem iterate_last {o : Objective} {tol : ℝ} : ∀ {k : Nat} {s s' : St} {m : Bool}, iterate o tol k s = .ok (.done s' m) →
    (s' = s ∧ ((|s.edm| ≤ tol ∧ m = false) ∨ (k = 0 ∧ m = true))) ∨ ∃ n, iteration o n = .ok (.next s')
  | 0, s, s', m, h => by
    simp only [iterate, Res.ok.injEq, Exit.done.injEq] at h
    exact Or.inl ⟨h.1.symm, Or.inr ⟨rfl, h.2.symm⟩⟩
  | k + 1, s, s', m, h => by
    rw [iterate] at h
    split at h
    · rename_i he
      simp only [Res.ok.injEq, Exit.done.injEq] at h
      exact Or.inl ⟨h.1.symm, Or.inl ⟨he, h.2.symm⟩⟩
    · cases hi : iteration o s.norms with
      | ok r =>
        rw [hi] at h
        cases r with
        | failed c => simp only [Res.bind] at h; cases h
        | nan => simp only [Res.bind] at h; cases h
        | next s1 =>
          simp only [Res.bind] at h
          rcases iterate_last (o := o) (tol := tol) (k := k) (s := s1) (s' := s') (m := m) h with ⟨rfl, _⟩ | h
          · exact Or.inr ⟨_, hi⟩
          · exact Or.inr h
      | throws => rw [hi] at h; cases h
      | ub => rw [hi] at h; cases h

theorem iterate_done {o : Objective} {tol : ℝ} : ∀ {k : Nat} {s s' : St}, iterate o tol k s = .ok (.done s' false) → |s'.edm| ≤ tol
  | 0, s, s', h => by simp only [iterate, Res.ok.injEq, Exit.done.injEq] at h; cases h.2
  | k + 1, s, s', h => by
    rw [iterate] at h
    split at h
    · rename_i he
      simp only [Res.ok.injEq, Exit.done.injEq] at h
      rw [← h.1]; exact he
    · cases hi : iteration o s.norms with
      | ok r =>
        rw [hi] at h
        cases r with
        | failed c => simp only [Res.bind] at h; cases h
        | nan => simp only [Res.bind] at h; cases h
        | next s1 => simp only [Res.bind] at h; exact iterate_done (o := o) (tol := tol) (k := k) (s := s1) (s' := s') h
      | throws => rw [hi] at h; cases h
      | ub => rw [hi] at h; cases h

theorem fit_cases {o : Objective} {tol : ℝ} {maxIter : Nat} {init : List ℝ} {c0 : Nat → Nat → ℝ} {e0 : ℝ} {f : Fit}
    (hne : init ≠ []) (h : fitLogNorms o tol maxIter init c0 e0 = .ok (.fit f)) :
    ∃ s m, iterate o tol maxIter ⟨initial init, c0, 100 * tol⟩ = .ok (.done s m) ∧ f.norms = s.norms ∧ f.covar = s.covar ∧
      f.edm = s.edm ∧ ((m = true ∧ f.status = -2 ∧ f.logLike = 0) ∨ (m = false ∧ f.status = 0 ∧ o.ll s.norms = .ok f.logLike)) := by
  unfold fitLogNorms at h
  rw [if_neg (fun c => hne (List.length_eq_zero_iff.1 c))] at h
  obtain ⟨e, he, h⟩ := Res.bind_eq_ok.1 h
  cases e with
  | failed c => simp only [conclude] at h; cases h
  | nan => simp only [conclude] at h; cases h
  | done s m =>
    refine ⟨s, m, he, ?_⟩
    cases m with
    | true =>
      simp only [conclude, Res.ok.injEq, Out.fit.injEq] at h
      subst h
      exact ⟨rfl, rfl, rfl, Or.inl ⟨rfl, rfl, rfl⟩⟩
    | false =>
      simp only [conclude] at h
      obtain ⟨l, hl, h⟩ := Res.bind_eq_ok.1 h
      simp only [Res.ok.injEq, Out.fit.injEq] at h
      subst h
      exact ⟨rfl, rfl, rfl, Or.inr ⟨rfl, rfl, hl⟩⟩

theorem not_small {tol : ℝ} (ht : 0 < tol) : ¬ |100 * tol| ≤ tol := by
  rw [abs_of_pos (by positivity)]; linarith

/-! ### What a result means -/

/-- A fit that has converged, or had too many steps, hands back normalizations between `exp (-20)` and `exp 20`: they are
positive. -/
theorem C130_positive (o : Objective) (tol : ℝ) (maxIter : Nat) (init : List ℝ) (c0 : Nat → Nat → ℝ) (e0 : ℝ) (f : Fit)
    (ht : 0 < tol) (hm : 0 < maxIter) (hne : init ≠ []) (h : fitLogNorms o tol maxIter init c0 e0 = .ok (.fit f)) :
    ∀ x ∈ f.norms, Real.exp (-20) ≤ x ∧ x ≤ Real.exp 20 := by
  obtain ⟨s, m, hs, h1, _⟩ := fit_cases hne h
  rw [h1]
  rcases iterate_last hs with ⟨_, h2 | h2⟩ | ⟨n, h2⟩
  · exact absurd h2.1 (not_small ht)
  · omega
  · obtain ⟨g, hess, c, _, _, h3⟩ := iteration_next h2
    exact (checks_next h3).1

/-- A fit that has converged has an estimated distance within the tolerance, and the log-likelihood of its normalizations. -/
theorem C130_status (o : Objective) (tol : ℝ) (maxIter : Nat) (init : List ℝ) (c0 : Nat → Nat → ℝ) (e0 : ℝ) (f : Fit)
    (hne : init ≠ []) (h : fitLogNorms o tol maxIter init c0 e0 = .ok (.fit f)) :
    (f.status = 0 ∧ |f.edm| ≤ tol ∧ o.ll f.norms = .ok f.logLike) ∨ (f.status = -2 ∧ f.logLike = 0) := by
  obtain ⟨s, m, hs, h1, h2, h3, h4⟩ := fit_cases hne h
  rcases h4 with ⟨rfl, h4, h5⟩ | ⟨rfl, h4, h5⟩
  · exact Or.inr ⟨h4, h5⟩
  · refine Or.inl ⟨h4, ?_, ?_⟩
    · rw [h3]; exact iterate_done hs
    · rw [h1]; exact h5

/-- A fit that may take one step should say whether it has converged.  It never says that it has, even if it starts at the
best normalizations: the step that finds that out is one too many. -/
theorem C130_last_violates (o : Objective) (tol : ℝ) (init : List ℝ) (c0 : Nat → Nat → ℝ) (e0 : ℝ) (f : Fit) (ht : 0 < tol)
    (hne : init ≠ []) (h : fitLogNorms o tol 1 init c0 e0 = .ok (.fit f)) : f.status = -2 := by
  obtain ⟨s, m, hs, _, _, _, h4⟩ := fit_cases hne h
  rcases h4 with ⟨rfl, h4, _⟩ | ⟨rfl, h4, _⟩
  · exact h4
  · exfalso
    rw [iterate, if_neg (not_small ht)] at hs
    cases hi : iteration o (initial init) with
    | ok r =>
      rw [hi] at hs
      cases r with
      | failed c => simp only [Res.bind] at hs; cases hs
      | nan => simp only [Res.bind] at hs; cases hs
      | next s1 => simp only [Res.bind, iterate, Res.ok.injEq, Exit.done.injEq] at hs; cases hs.2
    | throws => rw [hi] at hs; cases hs
    | ub => rw [hi] at hs; cases hs

/-- Without normalizations the log-likelihood is computed and nothing else happens. -/
theorem C130_none (o : Objective) (tol : ℝ) (maxIter : Nat) (c0 : Nat → Nat → ℝ) (e0 l : ℝ) (h : o.ll [] = .ok l) :
    fitLogNorms o tol maxIter [] c0 e0 = .ok (.fit ⟨0, [], c0, e0, l⟩) := by
  unfold fitLogNorms
  rw [if_pos (show ([] : List ℝ).length = 0 from rfl), h]
  rfl

/-! ### Normalizations that are not positive -/

theorem initial_length (l : List ℝ) : (initial l).length = l.length := by
  unfold initial; split <;> simp

theorem initial_getElem? {l : List ℝ} {i : Nat} (hi : i + 1 < l.length) : (initial l)[i]? = l[i]? := by
  unfold initial
  split
  · rw [List.getElem?_set_ne (by omega)]
  · rfl

theorem zipWith_getElem?_some {α β γ : Type} {f : α → β → γ} {a : List α} {b : List β} {i : Nat} {x : α} {y : β} (h1 : a[i]? = some x)
    (h2 : b[i]? = some y) : (List.zipWith f a b)[i]? = some (f x y) := by
  rw [List.getElem?_zipWith, h1, h2]

theorem protect_length : ∀ (d n g : List ℝ), d.length = n.length → g.length = n.length → (protect d n g).1.length = n.length ∧
    (protect d n g).2.1.length = n.length
  | [], [], _, _, _ => by simp [protect]
  | d :: ds, n :: ns, g :: gs, h1, h2 => by
    simp only [List.length_cons, Nat.add_right_cancel_iff] at h1 h2
    obtain ⟨a, b⟩ := protect_length ds ns gs h1 h2
    rw [protect]
    simp only
    split
    · exact ⟨by simp [a], by simp [b]⟩
    · exact ⟨by simp [a], by simp [b]⟩
  | [], _ :: _, _, h1, _ => by cases h1
  | _ :: _, [], _, h1, _ => by cases h1
  | _ :: _, _ :: _, [], _, h2 => by cases h2

theorem protectRetry_length : ∀ (d n : List ℝ), d.length = n.length → (protectRetry d n).length = n.length
  | [], [], _ => by simp [protectRetry]
  | d :: ds, n :: ns, h => by
    simp only [List.length_cons, Nat.add_right_cancel_iff] at h
    rw [protectRetry, List.length_cons, List.length_cons, protectRetry_length ds ns h]
  | [], _ :: _, h => by cases h
  | _ :: _, [], h => by cases h

theorem delta_length {c : List (List ℝ)} {g n : List ℝ} (hc : c.length = n.length) (hg : g.length = n.length) :
    (delta c g n).1.length = n.length := by
  have hm : ∀ v, (mulVec c v).length = n.length := by intro v; simp [mulVec, hc]
  unfold delta
  simp only
  split
  · exact protectRetry_length _ _ (hm _)
  · exact (protect_length _ _ _ (hm _) hg).1

/-- The first iteration, when a normalization is not positive. -/
theorem first_bad {o : Objective} (hsz : Sized o) {n : List ℝ} {i : Nat} {v : ℝ} (hv : v ≤ 0) (h0 : n[i]? = some v) {r : Step}
    (h : iteration o n = .ok r) : (∃ c, r = .failed c) ∨ (r = .nan ∧ v ≠ 0) := by
  unfold iteration at h
  obtain ⟨⟨g, hess⟩, hg, h⟩ := Res.bind_eq_ok.1 h
  simp only at h
  by_cases hf : (o.invert (scaleHess n hess)).1 ≠ 0
  · rw [if_pos hf] at h
    simp only [Res.ok.injEq] at h
    exact Or.inl ⟨_, h.symm⟩
  · rw [if_neg hf] at h
    have hf := not_not.1 hf
    set c := (o.invert (scaleHess n hess)).2 with hc
    have hcc : o.invert (scaleHess n hess) = (0, c) := by rw [hc, ← hf]
    have hcl : c.length = n.length := by
      rw [hsz.inv _ _ hcc]
      simp [scaleHess, hsz.hess _ _ _ hg]
    have hgl : (scaleGrad n g).length = n.length := by simp [scaleGrad, hsz.grad _ _ _ hg]
    have hdl := delta_length hcl hgl
    have hin : i < n.length := (List.getElem?_eq_some_iff.1 h0).1
    have hz : (n.map clog)[i]? = some (clog v) := by rw [List.getElem?_map, h0]; rfl
    have hl : (List.zipWith Ln.sub (n.map clog) (delta c (scaleGrad n g) n).1)[i]? =
        some ((clog v).sub ((delta c (scaleGrad n g) n).1[i]'(by omega))) :=
      zipWith_getElem?_some hz (List.getElem?_eq_getElem (by omega))
    simp only [Res.ok.injEq] at h
    unfold checks at h
    split at h
    · exact Or.inl ⟨_, h.symm⟩
    · rename_i hd
      cases hm : (List.zipWith Ln.sub (n.map clog) (delta c (scaleGrad n g) n).1).mapM Ln.exp with
      | none =>
        rw [hm] at h
        refine Or.inr ⟨h.symm, ?_⟩
        rintro rfl
        apply hd
        refine ⟨_, List.mem_of_getElem? hl, ?_⟩
        rw [clog, if_neg (lt_irrefl _), if_pos rfl]
        trivial
      | some ns =>
        exfalso
        rcases hv.lt_or_eq with hneg | rfl
        · have hnan : clog v = .nan := by rw [clog, if_neg (not_lt.2 hv), if_neg hneg.ne]
          rw [hnan] at hl
          have hlen : ns.length = (List.zipWith Ln.sub (n.map clog) (delta c (scaleGrad n g) n).1).length := mapM_length hm
          have hi2 : i < ns.length := by
            rw [hlen, List.length_zipWith, List.length_map]; omega
          obtain ⟨a, ha, hb⟩ := mapM_getElem? hm (List.getElem?_eq_getElem hi2)
          rw [hl] at ha
          simp only [Option.some.injEq] at ha
          subst ha
          cases hb
        · apply hd
          refine ⟨_, List.mem_of_getElem? hl, ?_⟩
          rw [clog, if_neg (lt_irrefl _), if_pos rfl]
          trivial

/-- Fits should work from any normalizations.  If one that is not the last one is zero the fit fails at its first step, whatever
the data are, and if it is negative the results are not numbers, or the fit fails. -/
theorem C130_zero_violates (o : Objective) (hsz : Sized o) (tol : ℝ) (maxIter : Nat) (init : List ℝ) (c0 : Nat → Nat → ℝ) (e0 : ℝ)
    (out : Out) (ht : 0 < tol) (hm : 0 < maxIter) (i : Nat) (hi : i + 1 < init.length) (v : ℝ) (hv : v ≤ 0) (h0 : init[i]? = some v)
    (h : fitLogNorms o tol maxIter init c0 e0 = .ok out) : (∃ code, out = .failed code) ∨ (out = .nan ∧ v ≠ 0) := by
  obtain ⟨k, rfl⟩ : ∃ k, maxIter = k + 1 := ⟨maxIter - 1, by omega⟩
  unfold fitLogNorms at h
  rw [if_neg (by omega), iterate, if_neg (not_small ht)] at h
  obtain ⟨e, he, h⟩ := Res.bind_eq_ok.1 h
  cases hr : iteration o (initial init) with
  | ok r =>
    rw [hr] at he
    rcases first_bad hsz hv (by rw [initial_getElem? hi]; exact h0) hr with ⟨c, rfl⟩ | ⟨rfl, hne⟩
    · simp only [Res.bind, Res.ok.injEq] at he
      subst he
      simp only [conclude, Res.ok.injEq] at h
      exact Or.inl ⟨_, h.symm⟩
    · simp only [Res.bind, Res.ok.injEq] at he
      subst he
      simp only [conclude, Res.ok.injEq] at h
      exact Or.inr ⟨h.symm, hne⟩
  | throws => rw [hr] at he; cases he
  | ub => rw [hr] at he; cases he

/-! ### The steps -/

theorem protect_le : ∀ (d n g : List ℝ) (i : Nat) (x y : ℝ), (∀ v ∈ n, 0 ≤ v) → (protect d n g).1[i]? = some x → n[i]? = some y → x ≤ y
  | [], _, _, i, x, y, _, h, _ => by simp [protect] at h
  | _ :: _, [], _, i, x, y, _, h, _ => by simp [protect] at h
  | _ :: _, _ :: _, [], i, x, y, _, h, _ => by simp [protect] at h
  | d :: ds, n :: ns, g :: gs, i, x, y, hn, h, hy => by
    rw [protect] at h
    simp only at h
    have h0 : 0 ≤ n := hn n List.mem_cons_self
    by_cases c : n < d
    · rw [if_pos c] at h
      cases i with
      | zero =>
        simp only [List.getElem?_cons_zero, Option.some.injEq] at h hy
        rw [← h, ← hy]; nlinarith
      | succ i =>
        simp only [List.getElem?_cons_succ] at h hy
        exact protect_le ds ns gs i x y (fun v hv => hn v (List.mem_cons_of_mem _ hv)) h hy
    · rw [if_neg c] at h
      cases i with
      | zero =>
        simp only [List.getElem?_cons_zero, Option.some.injEq] at h hy
        rw [← h, ← hy]; exact not_lt.1 c
      | succ i =>
        simp only [List.getElem?_cons_succ] at h hy
        exact protect_le ds ns gs i x y (fun v hv => hn v (List.mem_cons_of_mem _ hv)) h hy

theorem protectRetry_le : ∀ (d n : List ℝ) (i : Nat) (x y : ℝ), (∀ v ∈ n, 0 ≤ v) → (protectRetry d n)[i]? = some x → n[i]? = some y → x ≤ y
  | [], _, i, x, y, _, h, _ => by simp [protectRetry] at h
  | _ :: _, [], i, x, y, _, h, _ => by simp [protectRetry] at h
  | d :: ds, n :: ns, i, x, y, hn, h, hy => by
    rw [protectRetry] at h
    cases i with
    | zero =>
      simp only [List.getElem?_cons_zero, Option.some.injEq] at h hy
      rw [← h, ← hy]
      split
      · exact hn n List.mem_cons_self
      · rename_i c; exact not_lt.1 c
    | succ i =>
      simp only [List.getElem?_cons_succ] at h hy
      exact protectRetry_le ds ns i x y (fun v hv => hn v (List.mem_cons_of_mem _ hv)) h hy

theorem delta_le (c : List (List ℝ)) (g n : List ℝ) (i : Nat) (x y : ℝ) (hn : ∀ v ∈ n, 0 ≤ v) (h : (delta c g n).1[i]? = some x)
    (hy : n[i]? = some y) : x ≤ y := by
  unfold delta at h
  simp only at h
  split at h
  · exact protectRetry_le _ _ i x y hn h hy
  · exact protect_le _ _ _ i x y hn h hy

/-- A step in the logarithm of a normalization should be free to go where the data want it.  The limit meant for normalizations
themselves is applied to their logarithms: a normalization `x` does not become smaller than `x exp (-x)` in a step, so that
small ones cannot become smaller still. -/
theorem C130_slow_violates (o : Objective) (n : List ℝ) (hn : Positive n) (s : St) (h : iteration o n = .ok (.next s)) (i : Nat)
    (x y : ℝ) (hx : n[i]? = some x) (hy : s.norms[i]? = some y) : x * Real.exp (-x) ≤ y := by
  obtain ⟨g, hess, c, _, _, h3⟩ := iteration_next h
  obtain ⟨l, hl, hly⟩ := mapM_getElem? (checks_next h3).2.2.2 hy
  rw [List.getElem?_zipWith, List.getElem?_map, hx] at hl
  have hx0 : 0 < x := hn x (List.mem_of_getElem? hx)
  cases hd : (delta c (scaleGrad n g) n).1[i]? with
  | none => rw [hd] at hl; cases hl
  | some d =>
    rw [hd] at hl
    simp only [Option.map_some, Option.some.injEq] at hl
    have hdx := delta_le c _ n i d x (fun v hv => (hn v hv).le) hd hx
    rw [clog, if_pos hx0] at hl
    subst hl
    simp only [Ln.sub, Ln.exp, Option.some.injEq] at hly
    rw [← hly]
    nth_rewrite 1 [← Real.exp_log hx0]
    rw [← Real.exp_add]
    exact Real.exp_le_exp.2 (by linarith)

/-! ### One normalization -/

/-- Exact inversion of a 1×1 matrix. -/
noncomputable def inv1 (h : List (List ℝ)) : Int × List (List ℝ) := (0, [[1 / FitUtils.mat h 0 0]])

/-- One bin with `d` counts and `t` expected ones. -/
noncomputable def one (d t : ℝ) : Objective := objective [d] [[t]] [0] none none 0 0 inv1

theorem one_gh {d t x : ℝ} (hd : 0 < d) (ht : 0 < t) (hx : 0 < x) :
    (one d t).gh [x] = .ok ([(1 - d / (x * t)) * t], [[d / (x * t * (x * t)) * t * t]]) := by
  have hxt : 0 < x * t := mul_pos hx ht
  simp [one, objective, Newton.gradHess, FitUtils.gradientAt, FitUtils.hessianAt, FitUtils.gradElem,
    FitUtils.hessElem, FitUtils.slice, FitUtils.rangeStop, List.mapM_cons,
    FitUtils.sumModel, FitUtils.addTemplates, FitUtils.addTemplate, loop, vget, vset,
    FitUtils.fracDiff, FitUtils.fracDiffLoop, FitUtils.dataOverModel2,
    FitUtils.dataOverModel2Loop, FitUtils.innerProduct2, FitUtils.innerProduct3,
    not_le.2 hd, not_le.2 hxt, List.range_succ]

theorem one_ll {d t x : ℝ} (hd : 1e-9 < d) (ht : 0 < t) (hx : 0 < x) :
    (one d t).ll [x] = .ok (d * Real.log (x * t) - x * t) := by
  have hxt : 0 < x * t := mul_pos hx ht
  simp [one, objective, FitUtils.getLogLikelihood, FitUtils.slice, FitUtils.rangeStop,
    FitUtils.sumModel, FitUtils.addTemplates, FitUtils.addTemplate, loop, vget, vset,
    FitUtils.logLikePoisson, FitUtils.llLoop, hd, not_lt.2 hxt.le, not_le.2 hxt]

theorem one_delta {d t x : ℝ} (hd : 0 < d) (ht : 0 < t) (hx : 0 < x) :
    scaleGrad [x] [(1 - d / (x * t)) * t] = [x * t - d] ∧ scaleHess [x] [[d / (x * t * (x * t)) * t * t]] = [[d]] := by
  constructor
  · simp only [scaleGrad, List.zipWith_cons_cons, List.zipWith_nil_right, List.cons.injEq, and_true]
    field_simp
  · simp only [scaleHess, List.zipWith_cons_cons, List.zipWith_nil_right, List.cons.injEq, and_true]
    field_simp

theorem one_inv (d t h : ℝ) : (one d t).invert [[h]] = (0, [[1 / h]]) := by
  simp [one, objective, inv1, FitUtils.mat, FitUtils.val]

theorem mulVec_one (a b : ℝ) : mulVec [[a]] [b] = [a * b] := by
  simp [mulVec]

/-- The step of the fit of one bin, when it is not limited. -/
theorem one_step {d t x : ℝ} (hd : 0 < d) (ht : 0 < t) (hx : 0 < x) (hle : (x * t - d) / d ≤ x)
    (h20 : |Real.log x - (x * t - d) / d| ≤ 20) :
    iteration (one d t) [x] = .ok (.next ⟨[Real.exp (Real.log x - (x * t - d) / d)],
      scaleCovar [[1 / d]] [Real.exp (Real.log x - (x * t - d) / d)], |(x * t - d) / d * (x * t - d)| + 0⟩) := by
  unfold iteration
  rw [one_gh hd ht hx]
  simp only [Res.bind_ok]
  rw [(one_delta hd ht hx).1, (one_delta hd ht hx).2, one_inv]
  simp only [ne_eq, not_true_eq_false, if_false]
  have hdel : delta [[1 / d]] [x * t - d] [x] = ([(x * t - d) / d], |(x * t - d) / d * (x * t - d)| + 0) := by
    have hp : protect [(x * t - d) / d] [x] [x * t - d] = ([(x * t - d) / d], [x * t - d], |(x * t - d) / d * (x * t - d)| + 0, 0) := by
      rw [protect]; simp only [protect]; rw [if_neg (not_lt.2 hle)]
    unfold delta
    rw [mulVec_one, show 1 / d * (x * t - d) = (x * t - d) / d by ring]
    simp only [hp]
    rw [if_neg (by omega)]
  rw [hdel]
  simp only [List.map_cons, List.map_nil, List.zipWith_cons_cons, List.zipWith_nil_right]
  rw [clog, if_pos hx]
  unfold checks
  rw [if_neg (by
    rintro ⟨l, hl, hdiv⟩
    simp only [List.mem_singleton] at hl
    subst hl
    simp only [Ln.sub, Ln.diverged] at hdiv
    exact absurd hdiv (not_lt.2 h20))]
  simp [Ln.sub, Ln.exp]

/-- The step of the fit of one bin, when it is limited: there is none, and the distance is zero. -/
theorem one_stuck {d t x : ℝ} (hd : 0 < d) (ht : 0 < t) (hx : 0 < x) (hlt : x < (x * t - d) / d) (h20 : |Real.log x| ≤ 20) :
    iteration (one d t) [x] = .ok (.next ⟨[x], scaleCovar [[1 / d]] [x], 0⟩) := by
  unfold iteration
  rw [one_gh hd ht hx]
  simp only [Res.bind_ok]
  rw [(one_delta hd ht hx).1, (one_delta hd ht hx).2, one_inv]
  simp only [ne_eq, not_true_eq_false, if_false]
  have hdel : delta [[1 / d]] [x * t - d] [x] = ([0], 0) := by
    have hp : protect [(x * t - d) / d] [x] [x * t - d] = ([0.9999 * x], [0], |0.9999 * x * 0| + 0, 1) := by
      rw [protect]; simp only [protect]; rw [if_pos hlt]
    unfold delta
    rw [mulVec_one, show 1 / d * (x * t - d) = (x * t - d) / d by ring]
    simp only [hp]
    rw [if_pos (by omega)]
    simp [mulVec, protectRetry, not_lt.2 hx.le]
  rw [hdel]
  simp only [List.map_cons, List.map_nil, List.zipWith_cons_cons, List.zipWith_nil_right]
  rw [clog, if_pos hx]
  unfold checks
  rw [if_neg (by
    rintro ⟨l, hl, hdiv⟩
    simp only [List.mem_singleton] at hl
    subst hl
    simp only [Ln.sub, Ln.diverged, sub_zero] at hdiv
    exact absurd hdiv (not_lt.2 h20))]
  simp [Ln.sub, Ln.exp, Real.exp_log hx]

theorem initial_one {x : ℝ} (hx : 1e-6 ≤ x) : initial [x] = [x] := by
  unfold initial
  rw [if_neg]
  simpa [FitUtils.val] using hx

theorem log_le_20 {x : ℝ} (h1 : 1e-6 ≤ x) (h2 : x ≤ 1000) : |Real.log x| ≤ 20 := by
  have hx : 0 < x := by linarith
  have e1 : (2.7 : ℝ) < Real.exp 1 := by have := Real.exp_one_gt_d9; linarith
  have e20 : (1000000 : ℝ) ≤ Real.exp 20 := by
    have : Real.exp 20 = Real.exp 1 ^ 20 := by rw [← Real.exp_nat_mul]; norm_num
    rw [this]
    calc (1000000 : ℝ) ≤ 2.7 ^ 20 := by norm_num
      _ ≤ Real.exp 1 ^ 20 := by gcongr
  rw [abs_le]
  constructor
  · rw [Real.le_log_iff_exp_le hx, Real.exp_neg]
    calc (Real.exp 20)⁻¹ ≤ (1000000 : ℝ)⁻¹ := by gcongr
      _ ≤ x := by norm_num at h1 ⊢; exact h1
  · rw [Real.log_le_iff_le_exp hx]
    linarith

/-- A fit that says it has converged should be near the best normalization.  The fit of one bin whose normalization is too large
by more than a factor of `1 + x` says so at the start, with a distance of zero. -/
theorem C130_stuck_violates (d t x tol : ℝ) (hd : 1e-9 < d) (ht : 0 < t) (hx : 1e-6 ≤ x) (hx2 : x ≤ 1000) (h : d / t * (1 + x) < x)
    (htol : 0 < tol) (k : Nat) (c0 : Nat → Nat → ℝ) (e0 : ℝ) : ∃ f, fitLogNorms (one d t) tol (k + 2) [x] c0 e0 = .ok (.fit f) ∧
      f.status = 0 ∧ f.edm = 0 ∧ f.norms = [x] ∧ f.logLike = d * Real.log (x * t) - x * t := by
  have hd0 : 0 < d := by linarith
  have hx0 : 0 < x := by linarith
  have hlt : x < (x * t - d) / d := by
    rw [lt_div_iff₀ hd0]
    rw [div_mul_eq_mul_div, div_lt_iff₀ ht] at h
    linarith
  refine ⟨⟨0, [x], scaleCovar [[1 / d]] [x], 0, d * Real.log (x * t) - x * t⟩, ?_, rfl, rfl, rfl, rfl⟩
  unfold fitLogNorms
  rw [if_neg (by simp), initial_one hx, iterate, if_neg (not_small htol)]
  simp only
  rw [one_stuck hd0 ht hx0 hlt (log_le_20 hx hx2)]
  simp only [Res.bind]
  rw [iterate, if_pos (by simp only [abs_zero]; exact htol.le)]
  simp only [Res.bind_ok, conclude]
  rw [one_ll hd ht hx0]
  rfl

/-- At the best normalization the fit stays there, and says that it has converged. -/
theorem C130_best (d t tol : ℝ) (hd : 1e-9 < d) (ht : 0 < t) (hx : 1e-6 ≤ d / t) (hx2 : d / t ≤ 1000) (htol : 0 < tol) (k : Nat)
    (c0 : Nat → Nat → ℝ) (e0 : ℝ) : ∃ f, fitLogNorms (one d t) tol (k + 2) [d / t] c0 e0 = .ok (.fit f) ∧ f.status = 0 ∧
      f.norms = [d / t] ∧ f.logLike = d * Real.log d - d ∧ f.covar 0 0 = 1 / d := by
  have hd0 : 0 < d := by linarith
  have hx0 : 0 < d / t := by positivity
  have e : d / t * t = d := by field_simp
  have hz : (d / t * t - d) / d = 0 := by rw [e]; simp
  have hst := one_step hd0 ht hx0 (by rw [hz]; exact hx0.le) (by rw [hz, sub_zero]; exact log_le_20 hx hx2)
  rw [hz, sub_zero, Real.exp_log hx0] at hst
  refine ⟨⟨0, [d / t], scaleCovar [[1 / d]] [d / t], 0, d * Real.log d - d⟩, ?_, rfl, rfl, rfl, ?_⟩
  swap
  · simp [scaleCovar, FitUtils.mat, FitUtils.val]
  unfold fitLogNorms
  rw [if_neg (by simp), initial_one hx, iterate, if_neg (not_small htol)]
  simp only
  rw [hst]
  simp only [Res.bind]
  rw [iterate, if_pos (by simp only [zero_mul, abs_zero, add_zero]; exact htol.le)]
  simp only [Res.bind_ok, conclude]
  rw [one_ll hd ht hx0, e]
  simp

/-- The step of the fit of one bin that is not limited is the gradient in the logarithm, over the number of counts.  The gradient
is the derivative it should be; the number of counts is the second derivative only at the best normalization. -/
theorem C130_step_partial (d t x : ℝ) (hd : 0 < d) (ht : 0 < t) (hx : 0 < x) (hle : (x * t - d) / d ≤ x)
    (h20 : |Real.log x - (x * t - d) / d| ≤ 20) :
    ∃ s, iteration (one d t) [x] = .ok (.next s) ∧ s.norms = [Real.exp (Real.log x - deriv (nll d t) (Real.log x) / d)] ∧
      HasDerivAt (nll d t) (x * t - d) (Real.log x) ∧ HasDerivAt (deriv (nll d t)) (x * t) (Real.log x) ∧
      (x * t = d ↔ deriv (deriv (nll d t)) (Real.log x) = d) := by
  have h1 : ∀ u, HasDerivAt (nll d t) (t * Real.exp u - d) u := by
    intro u
    unfold nll
    have a := (Real.hasDerivAt_exp u).const_mul t
    have b := ((hasDerivAt_id u).const_add (Real.log t)).const_mul d
    exact (a.sub b).congr_deriv (by ring)
  have h2 : deriv (nll d t) = fun u => t * Real.exp u - d := funext fun u => (h1 u).deriv
  have h3 : HasDerivAt (deriv (nll d t)) (x * t) (Real.log x) := by
    rw [h2]
    have := ((Real.hasDerivAt_exp (Real.log x)).const_mul t).sub_const d
    rw [Real.exp_log hx] at this
    exact this.congr_deriv (by ring)
  have h4 := h1 (Real.log x)
  rw [Real.exp_log hx, mul_comm t x] at h4
  refine ⟨_, one_step hd ht hx hle h20, ?_, h4, h3, ?_⟩
  · rw [h4.deriv]
  · rw [h3.deriv]

/-- The gradient the steps are computed from is the derivative in the logarithms of the normalizations, and the matrix is what the
second derivatives are when the gradient is zero. -/
theorem C130_gradient (n g : List ℝ) (h : List (List ℝ)) (row : List ℝ) (i j : Nat) (x y gi hij : ℝ) (hx : n[i]? = some x)
    (hy : n[j]? = some y) (hx0 : 0 < x) (hg : g[i]? = some gi) (hrow : h[i]? = some row) (hh : row[j]? = some hij) (F : ℝ → ℝ)
    (hF : HasDerivAt F gi x) : (∃ d, (scaleGrad n g)[i]? = some d ∧ HasDerivAt (fun u => F (Real.exp u)) d (Real.log x)) ∧
      ∃ row', (scaleHess n h)[i]? = some row' ∧ row'[j]? = some (x * y * hij) := by
  refine ⟨⟨gi * x, zipWith_getElem?_some hg hx, ?_⟩, _, zipWith_getElem?_some hrow hx, ?_⟩
  · have h1 := Real.hasDerivAt_exp (Real.log x)
    rw [Real.exp_log hx0] at h1
    have h2 : HasDerivAt F gi (Real.exp (Real.log x)) := by rw [Real.exp_log hx0]; exact hF
    exact h2.comp (Real.log x) h1
  · rw [zipWith_getElem?_some hh hy]
    congr 1; ring

/-! ### Covariances -/

/-- The covariance of normalizations should be that of their logarithms times the normalizations.  On the diagonal it is that of
the logarithms, elsewhere it is divided by the normalizations. -/
theorem C130_covar_violates (o : Objective) (tol : ℝ) (maxIter : Nat) (init : List ℝ) (c0 : Nat → Nat → ℝ) (e0 : ℝ) (f : Fit)
    (ht : 0 < tol) (hm : 0 < maxIter) (hne : init ≠ []) (h : fitLogNorms o tol maxIter init c0 e0 = .ok (.fit f)) :
    ∃ (n g : List ℝ) (hess c : List (List ℝ)), o.gh n = .ok (g, hess) ∧ o.invert (scaleHess n hess) = (0, c) ∧
      (∀ i, f.covar i i = FitUtils.mat c i i) ∧
      ∀ i j, j < i → f.covar i j = FitUtils.mat c i j / (FitUtils.val f.norms i * FitUtils.val f.norms j) ∧ f.covar j i = f.covar i j := by
  obtain ⟨s, m, hs, h1, h2, _⟩ := fit_cases hne h
  rcases iterate_last hs with ⟨_, h3 | h3⟩ | ⟨n, h3⟩
  · exact absurd h3.1 (not_small ht)
  · omega
  · obtain ⟨g, hess, c, hg, hi, h4⟩ := iteration_next h3
    refine ⟨n, g, hess, c, hg, hi, ?_, ?_⟩
    · intro i
      rw [h2, (checks_next h4).2.2.1, scaleCovar, if_pos rfl]
    · intro i j hij
      rw [h2, (checks_next h4).2.2.1, h1]
      unfold scaleCovar
      rw [if_neg (by omega), if_neg (by omega), show max i j = i by omega, show min i j = j by omega,
        show max j i = i by omega, show min j i = j by omega]
      exact ⟨rfl, rfl⟩

/-- One bin with 100 counts where one is expected: the variance of the normalization should be 100.  It is 1/100. -/
example : ∃ f, fitLogNorms (one 100 1) 1e-3 10 [100 / 1] (fun _ _ => 0) 0 = .ok (.fit f) ∧ f.status = 0 ∧ f.covar 0 0 = 1 / 100 := by
  obtain ⟨f, h, h1, h2, _, h3⟩ := C130_best 100 1 1e-3 (by norm_num) (by norm_num) (by norm_num) (by norm_num) (by norm_num) 8
    (fun _ _ => 0) 0
  exact ⟨f, h, h1, h3⟩

/-- One bin with one count where two are expected, started at three: "converged" at three, while the best one is a half. -/
example : ∃ f, fitLogNorms (one 1 2) 1e-3 10 [3] (fun _ _ => 0) 0 = .ok (.fit f) ∧ f.status = 0 ∧ f.norms = [3] := by
  obtain ⟨f, h, h1, _, h2, _⟩ := C130_stuck_violates 1 2 3 1e-3 (by norm_num) (by norm_num) (by norm_num) (by norm_num) (by norm_num)
    (by norm_num) 8 (fun _ _ => 0) 0
  exact ⟨f, h, h1, h2⟩

/-- The objective of one bin has the sizes it should have. -/
example (d t : ℝ) (hd : 0 < d) (ht : 0 < t) (x : ℝ) (hx : 0 < x) : ∃ g h, (one d t).gh [x] = .ok (g, h) ∧ g.length = 1 ∧ h.length = 1 :=
  ⟨_, _, one_gh hd ht hx, rfl, rfl⟩

/-- An objective of two normalizations with the sizes it should have: a start with a zero fails. -/
example : Sized ⟨fun _ => .ok 0, fun n => .ok (n, n.map (fun _ => [])), fun h => (0, h)⟩ where
  grad := by intro n g h e; simp only [Res.ok.injEq, Prod.mk.injEq] at e; rw [e.1]
  hess := by intro n g h e; simp only [Res.ok.injEq, Prod.mk.injEq] at e; rw [← e.2]; simp
  inv := by intro h c e; simp only [Prod.mk.injEq, true_and] at e; rw [e]

end Verif.LogFit
