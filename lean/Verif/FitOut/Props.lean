import Verif.FitOut.Lemmas
/-
C108: the errors reported by gtlike.
-/
set_option linter.unusedSectionVars false
set_option linter.unusedSimpArgs false
set_option linter.unusedVariables false

namespace Verif.FitOut

open Verif

theorem turns_append (rs qs : List Round) (st : St) :
    turns (rs ++ qs) st = (turns rs st >>= turns qs) := by
  induction rs generalizing st with
  | nil => rfl
  | cons r rs ih =>
    rw [List.cons_append, turns, turns]
    cases h : turn st r with
    | ok st' => rw [Res.bind_ok, Res.bind_ok]; exact ih st'
    | throws => rfl
    | ub => rfl

theorem turn_done (st st' : St) (r : Round) (es : List ℝ) (hf : r.fitted = true)
    (hu : r.unc = some es) (h : turn st r = .ok st') :
    es.length = (Spec.frees r.mod).length ∧ Spec.Shows r.mod es st'.lines ∧
      Spec.Carries r.mod es st'.mod := by
  unfold turn fitErrors at h
  rw [hf, hu] at h
  simp only at h
  unfold setErrors at h
  rw [nfree_all] at h
  by_cases hl : es.length = (Spec.frees r.mod).length
  · rw [if_neg (by simpa using hl)] at h
    have h' : St.mk es (setModErrs r.mod es) (r.cov.getD [])
        (printMod (setModErrs r.mod es) es) = st' := Res.ok.inj h
    refine ⟨hl, ?_, ?_⟩
    · intro i
      rw [← h']
      show (printMod (setModErrs r.mod es) es)[i]? = _
      rw [printMod_eq, setModErrs_eq, attach_carry, attach_get]
      rfl
    · intro i
      rw [← h']
      show (Spec.params (setModErrs r.mod es))[i]? = _
      rw [setModErrs_eq, carry_get]
      rfl
  · rw [if_pos hl] at h
    cases h

/-- **C108.** Whatever happened in the turns of the fit loop before, if the last fit and the
computation of its errors end without an exception, gtlike shows with each free parameter the
error of that parameter, and none with the fixed ones, and the model it writes has these
errors.  What is missing: see `C108_stale_violates`. -/
theorem C108_errors_partial (rs : List Round) (r : Round) (es : List ℝ) (st : St)
    (hf : r.fitted = true) (hu : r.unc = some es) (h : turns (rs ++ [r]) start = .ok st) :
    es.length = (Spec.frees r.mod).length ∧ Spec.Shows r.mod es st.lines ∧
      Spec.Carries r.mod es st.mod := by
  rw [turns_append] at h
  obtain ⟨st₁, h1, h2⟩ := Res.bind_eq_ok.1 h
  rw [turns] at h2
  obtain ⟨st₂, h3, h4⟩ := Res.bind_eq_ok.1 h2
  have : st₂ = st := by rw [turns] at h4; exact Res.ok.inj h4
  rw [← this]
  exact turn_done st₁ st₂ r es hf hu h3

/-- **C108.** Errors of another number than that of the free parameters are refused. -/
theorem C108_number (st : St) (r : Round) (es : List ℝ) (hf : r.fitted = true)
    (hu : r.unc = some es) :
    turn st r = .throws ↔ es.length ≠ (Spec.frees r.mod).length := by
  unfold turn fitErrors
  rw [hf, hu]
  simp only
  unfold setErrors
  rw [nfree_all]
  by_cases hl : es.length = (Spec.frees r.mod).length
  · rw [if_neg (by simpa using hl)]
    constructor
    · intro h; cases h
    · intro h; exact absurd hl h
  · rw [if_pos hl]
    exact ⟨fun _ => hl, fun _ => rfl⟩

theorem attach_none (l : List (List Char × Par)) : ∀ x ∈ attach l [], x.error = none := by
  induction l with
  | nil => intro x hx; cases hx
  | cons y l ih =>
    intro x hx
    rw [attach] at hx
    split at hx
    · rcases List.mem_cons.1 hx with rfl | h
      · rfl
      · exact ih x h
    · rcases List.mem_cons.1 hx with rfl | h
      · rfl
      · exact ih x h

theorem turns_failed (rs : List Round) (st : St) (h0 : st.errors = [])
    (hl : ∀ x ∈ st.lines, x.error = none)
    (h : ∀ r ∈ rs, r.fitted = false ∨ r.unc = none) :
    ∃ st', turns rs st = .ok st' ∧ ∀ x ∈ st'.lines, x.error = none := by
  induction rs generalizing st with
  | nil => exact ⟨st, rfl, hl⟩
  | cons r rs ih =>
    have ht : turn st r = .ok ⟨[], r.mod, r.cov.getD [], printMod r.mod []⟩ := by
      unfold turn fitErrors
      rcases h r List.mem_cons_self with hr | hr
      · rw [hr, h0]; rfl
      · rw [hr, h0]
        cases r.fitted <;> rfl
    rw [turns, ht, Res.bind_ok]
    refine ih _ rfl ?_ (fun q hq => h q (List.mem_cons_of_mem _ hq))
    show ∀ x ∈ printMod r.mod [], x.error = none
    rw [printMod_eq]
    exact attach_none _

/-- **C108.** As long as no fit has given errors, no errors are shown. -/
theorem C108_failed (rs : List Round) (h : ∀ r ∈ rs, r.fitted = false ∨ r.unc = none) :
    ∃ st, turns rs start = .ok st ∧ ∀ x ∈ st.lines, x.error = none :=
  turns_failed rs start rfl (fun x hx => by cases hx) h

/-- A fit of `x` with `y` fixed, with the error 1. -/
def first : Round :=
  ⟨[(['A'], [⟨['x'], 5, true, 0⟩, ⟨['y'], 2, false, 0⟩])], true, some [1], none⟩

/-- A fit of `y` with `x` fixed, which fails. -/
def second : Round :=
  ⟨[(['A'], [⟨['x'], 5, false, 1⟩, ⟨['y'], 2, true, 0⟩])], false, none, none⟩

/-- **C108 is violated** when a fit is repeated: after a fit that fails the errors of the fit
before are shown, and the user may have changed which parameters are free between the fits.
Here the error of `x` is shown as that of `y`, which has never been fitted. -/
theorem C108_stale_violates :
    second.fitted = false ∧ ∃ st, turns [first, second] start = .ok st ∧
      ∃ x ∈ st.lines, x.par = ['y'] ∧ x.error = some 1 := by
  refine ⟨rfl, ⟨[1], second.mod, [], printMod second.mod [1]⟩, ?_, ?_⟩
  · rfl
  · exact ⟨⟨['A'], ['y'], 2, some 1⟩, List.mem_cons_of_mem _ List.mem_cons_self, rfl, rfl⟩

/-- A model with two sources and three free parameters. -/
def two : Mod :=
  [(['A'], [⟨['x'], 5, true, 0⟩, ⟨['y'], 2, false, 0⟩]),
   (['B'], [⟨['x'], 1, true, 0⟩, ⟨['z'], 3, true, 0⟩])]

-- the hypotheses of `C108_errors_partial` are met after a fit that failed
example : ∃ st, turns ([second] ++ [⟨two, true, some [1, 2, 3], none⟩]) start = .ok st ∧
    st.lines.map (·.error) = [some 1, none, some 2, some 3] := ⟨_, rfl, rfl⟩
example : turn start ⟨two, true, some [1, 2], none⟩ = .throws :=
  (C108_number _ _ [1, 2] rfl rfl).2 (by decide)
example : ∀ r ∈ [second, second], r.fitted = false ∨ r.unc = none := by
  intro r hr
  simp at hr
  rw [hr]
  exact Or.inl rfl

end Verif.FitOut
