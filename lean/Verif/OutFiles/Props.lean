import Verif.OutFiles.Lemmas

/-!
# C148: files that a fit leaves
-/

set_option linter.unusedSectionVars false
set_option linter.unusedSimpArgs false
set_option linter.unusedVariables false

namespace Verif.OutFiles

open Spec

variable {σ α : Type}

/-- **C148.** However the run ends and however often the fit is repeated, a file that is not an output
by its parameter, and which the user leaves alone, is as before. -/
theorem C148_confined (p : Pars) (g : Engine σ α) (edits : List (Edit α)) (fs : FS α) (n : String)
    (hn : ¬ IsOutput p n) (hu : ¬ UserWrites edits n) : (run p g edits fs).fs n = fs n := by
  unfold run
  by_cases h1 : checkOutputFile p.clobber fs p.sfile = true
  · rw [if_pos h1]
    cases g.setup with
    | none => rfl
    | some s => exact loop_keep n hn edits s fs hu
  · rw [if_neg h1]; rfl

/-- **C148.** With `clobber=no` the run is refused exactly if the output model exists, and then no file
is touched.  (Partial: the other outputs are not protected, see `C148_clobber_violates`.) -/
theorem C148_refused_partial (p : Pars) (g : Engine σ α) (edits : List (Edit α)) (fs : FS α) :
    ((∃ f, run p g edits fs = .refused f) ↔
      p.clobber = false ∧ p.sfile ≠ "none" ∧ ∃ c, fs p.sfile = some c) ∧
    ∀ f, run p g edits fs = .refused f → f = fs := by
  have hl : ∀ (es : List (Edit α)) (s : σ) (x f : FS α), loop p g es s x ≠ .refused f := by
    intro es
    induction es with
    | nil =>
      intro s x f h
      rw [loop] at h
      cases ht : turn p g s x with
      | stop f' => rw [ht] at h; cases h
      | next s1 f1 =>
        rw [ht] at h
        simp only at h
        unfold finish at h
        simp only at h
        split at h
        · split at h <;> cases h
        · cases h
    | cons e es ih =>
      intro s x f h
      rw [loop] at h
      cases ht : turn p g s x with
      | stop f' => rw [ht] at h; cases h
      | next s1 f1 => rw [ht] at h; exact ih _ _ _ h
  have hc : checkOutputFile p.clobber fs p.sfile = false ↔
      p.clobber = false ∧ p.sfile ≠ "none" ∧ ∃ c, fs p.sfile = some c := by
    unfold checkOutputFile
    by_cases h1 : p.clobber = true
    · simp [h1]
    · by_cases h2 : p.sfile ≠ "none" ∧ (fs p.sfile).isSome = true
      · rw [if_neg h1, if_pos h2]
        simp only [true_iff]
        exact ⟨by simpa using h1, h2.1, Option.isSome_iff_exists.1 h2.2⟩
      · rw [if_neg h1, if_neg h2]
        simp only [Bool.true_eq_false, false_iff]
        rintro ⟨_, h3, h4⟩
        exact h2 ⟨h3, Option.isSome_iff_exists.2 h4⟩
  have hiff : ∀ f, run p g edits fs = .refused f → f = fs ∧ checkOutputFile p.clobber fs p.sfile = false := by
    intro f h
    unfold run at h
    by_cases h1 : checkOutputFile p.clobber fs p.sfile = true
    · rw [if_pos h1] at h
      cases hs : g.setup with
      | none => rw [hs] at h; cases h
      | some s => rw [hs] at h; exact absurd h (hl _ _ _ _)
    · rw [if_neg h1] at h
      injection h with h
      exact ⟨h.symm, by simpa using h1⟩
  refine ⟨⟨fun ⟨f, h⟩ => hc.1 (hiff f h).2, fun h => ⟨fs, ?_⟩⟩, fun f h => (hiff f h).1⟩
  unfold run
  rw [hc.2 h]
  rfl

/-- **C148.** With `save=yes` and different names a regular run leaves the results, the spectra and the
model of one and the same state, that of the last fit. -/
theorem C148_complete (p : Pars) (g : Engine σ α) (edits : List (Edit α)) (fs f : FS α) (s : σ)
    (hsave : p.save = true) (h1 : p.results ≠ p.specfile) (h2 : p.sfile ≠ p.results)
    (h3 : p.sfile ≠ p.specfile) (h : run p g edits fs = .done s f) :
    f p.results = some (g.report s).1 ∧ (g.report s).2 = true ∧
    f p.specfile = some (g.spec s).1 ∧ (g.spec s).2 = true ∧
    (p.sfile ≠ "none" → f p.sfile = some (g.xml s)) := by
  obtain ⟨s0, _, hl⟩ := run_done h
  obtain ⟨t0, fs0, f0, ht, hf⟩ := loop_done _ _ _ _ _ hl
  obtain ⟨_, hb, hk⟩ := finish_done hf
  have hr := turn_results ht (fun hh => h2 hh.1.symm)
  rw [if_pos hsave] at hr
  obtain ⟨_, _, _, _, _, hrep, _⟩ := turn_next ht
  refine ⟨?_, hrep, (hb hsave).1, (hb hsave).2, fun hne => ?_⟩
  · rw [hk _ (Or.inl h1)]; exact hr
  · rw [hk _ (Or.inl h3)]; exact turn_sfile ht hne

/-- **C148.** With `save=no` the spectra file is as before, unless its name is that of another output.
(Partial: the results file is not, see `C148_save_no_violates`.) -/
theorem C148_save_no_partial (p : Pars) (g : Engine σ α) (edits : List (Edit α)) (fs : FS α) (n : String)
    (hsave : p.save = false) (h1 : n ≠ p.results) (h2 : n = p.sfile → p.sfile = "none")
    (hu : ¬ UserWrites edits n) : (run p g edits fs).fs n = fs n := by
  have h3 : ¬ (n = p.sfile ∧ p.sfile ≠ "none") := fun h => h.2 (h2 h.1)
  have hl : ∀ (es : List (Edit α)) (s : σ) (x : FS α), ¬ UserWrites es n → (loop p g es s x).fs n = x n := by
    intro es
    induction es with
    | nil =>
      intro s x _
      have ht := turn_keep p g s x n h1 h3
      rw [loop]
      cases hc : turn p g s x with
      | stop f => rw [hc] at ht; exact ht
      | next s1 f =>
        rw [hc] at ht
        simp only
        rw [finish_keep _ _ _ _ _ (Or.inr hsave)]
        exact ht
    | cons e es ih =>
      intro s x hu
      have ht := turn_keep p g s x n h1 h3
      rw [loop]
      cases hc : turn p g s x with
      | stop f => rw [hc] at ht; exact ht
      | next s1 f =>
        rw [hc] at ht
        simp only
        rw [ih s1 _ (fun ⟨e', he', c, hcc⟩ => hu ⟨e', List.mem_cons_of_mem _ he', c, hcc⟩),
          edit_keep n e f (fun c hcc => hu ⟨e, by simp, c, hcc⟩)]
        exact ht
  unfold run
  by_cases hck : checkOutputFile p.clobber fs p.sfile = true
  · rw [if_pos hck]
    cases g.setup with
    | none => rfl
    | some s => exact hl edits s fs hu
  · rw [if_neg hck]; rfl

/-- **C148 (violation).** With `save=no` a regular run deletes the results file, whatever was in it, for
example the results of an earlier run. -/
theorem C148_save_no_violates (p : Pars) (g : Engine σ α) (edits : List (Edit α)) (fs f : FS α) (s : σ)
    (hsave : p.save = false) (h2 : p.sfile ≠ p.results) (h : run p g edits fs = .done s f) :
    f p.results = none := by
  obtain ⟨s0, _, hl⟩ := run_done h
  obtain ⟨t0, fs0, f0, ht, hf⟩ := loop_done _ _ _ _ _ hl
  obtain ⟨_, _, hk⟩ := finish_done hf
  rw [hk _ (Or.inr hsave), turn_results ht (fun hh => h2 hh.1.symm), hsave]
  rfl

/-- **C148 (violation).** With `save=no`, if the report ends with an exception, the results file is left
empty, whatever was in it. -/
theorem C148_exception_violates (p : Pars) (g : Engine σ α) (edits : List (Edit α)) (fs : FS α) (c : α)
    (s s1 s2 : σ) (hck : p.clobber = true) (hsave : p.save = false) (h0 : g.setup = some s)
    (hm : fs p.srcmdl = some c) (h1 : g.read s c = some s1) (h2 : g.fit s1 = some s2)
    (h3 : (g.report s2).2 = false) :
    ∃ f, run p g edits fs = .failed f ∧ f p.results = some g.empty := by
  have ht : turn p g s fs = .stop (put fs p.results g.empty) := by
    unfold turn
    rw [hm]
    simp only [h1, h2]
    unfold printFitResults
    simp [h3, hsave]
  refine ⟨put fs p.results g.empty, ?_, put_self _ _ _⟩
  unfold run checkOutputFile
  rw [hck, if_pos rfl, if_pos rfl, h0]
  cases edits with
  | nil => simp only [loop, ht]
  | cons e es => simp only [loop, ht]

/-- **C148 (violation).** With `clobber=no` and no output model, existing results and spectra are
replaced without a question. -/
theorem C148_clobber_violates (p : Pars) (g : Engine σ α) (fs : FS α) (c oldR oldS : α) (s s1 s2 : σ)
    (hck : p.clobber = false) (hsf : p.sfile = "none") (hsave : p.save = true)
    (hne : p.results ≠ p.specfile) (h0 : g.setup = some s) (hm : fs p.srcmdl = some c)
    (h1 : g.read s c = some s1) (h2 : g.fit s1 = some s2) (h3 : (g.report s2).2 = true)
    (h4 : (g.spec s2).2 = true) (hR : fs p.results = some oldR) (hS : fs p.specfile = some oldS) :
    ∃ f, run p g [] fs = .done s2 f ∧ f p.results = some (g.report s2).1 ∧
      f p.specfile = some (g.spec s2).1 := by
  have ht : turn p g s fs = .next s2 (put (put fs p.results g.empty) p.results (g.report s2).1) := by
    unfold turn
    rw [hm]
    simp only [h1, h2]
    unfold printFitResults writeSourceXml
    simp [h3, hsave, hsf]
  refine ⟨put (rm (put (put fs p.results g.empty) p.results (g.report s2).1) p.specfile) p.specfile (g.spec s2).1,
    ?_, ?_, put_self _ _ _⟩
  · unfold run checkOutputFile
    simp only [hck, hsf, h0, loop, ht, finish, hsave, h4]
    simp
  · rw [put_ne _ _ hne, rm_ne _ hne, put_self]

/-- **C148 (violation).** If the results and the output model have the same name, the results are
lost. -/
theorem C148_same_name_violates (p : Pars) (g : Engine σ α) (edits : List (Edit α)) (fs f : FS α) (s : σ)
    (hne : p.sfile ≠ "none") (h2 : p.results = p.sfile) (h3 : p.sfile ≠ p.specfile)
    (h : run p g edits fs = .done s f) : f p.results = some (g.xml s) := by
  obtain ⟨s0, _, hl⟩ := run_done h
  obtain ⟨t0, fs0, f0, ht, hf⟩ := loop_done _ _ _ _ _ hl
  obtain ⟨_, _, hk⟩ := finish_done hf
  rw [h2, hk _ (Or.inl h3)]
  exact turn_sfile ht hne

/-- **C148.** If the model that the user has edited cannot be read, the output model of the fit before
is still there. -/
theorem C148_last_fit (p : Pars) (g : Engine σ α) (e : Edit α) (es : List (Edit α)) (s s1 : σ)
    (fs f1 : FS α) (ht : turn p g s fs = .next s1 f1) (hne : p.sfile ≠ "none")
    (hu : ∀ c, (p.sfile, c) ∉ e)
    (hbad : ∀ c, edit f1 e p.srcmdl = some c → g.read s1 c = none) :
    ∃ f, loop p g (e :: es) s fs = .failed f ∧ f p.sfile = some (g.xml s1) := by
  have ht2 : turn p g s1 (edit f1 e) = .stop (edit f1 e) := by
    unfold turn
    cases hc : edit f1 e p.srcmdl with
    | none => rfl
    | some c => simp only [hbad c hc]
  refine ⟨edit f1 e, ?_, ?_⟩
  · rw [loop, ht]
    simp only
    cases es with
    | nil => rw [loop, ht2]
    | cons e' es' => rw [loop, ht2]
  · rw [edit_keep _ _ _ hu]
    exact turn_sfile ht hne

/-! ### The hypotheses are met -/

/-- An engine that counts fits; contents are numbers. -/
def exEngine : Engine ℕ ℕ where
  setup := some 0
  read := fun s c => if c = 99 then none else some (s + c)
  fit := fun s => some (s + 1)
  empty := 0
  report := fun s => (100 + s, true)
  xml := fun s => 200 + s
  spec := fun s => (300 + s, true)

/-- A model and an old results file. -/
def exFs : FS ℕ := fun n => if n = "m.xml" then some 5 else if n = "results.dat" then some 1 else
  if n = "spec.fits" then some 2 else none

def exPars : Pars := ⟨false, true, "m.xml", "out.xml", "results.dat", "spec.fits"⟩

/-- Two fits. -/
example : ∃ f, run exPars exEngine [[("m.xml", 7)]] exFs = .done 14 f ∧ f "results.dat" = some 114 ∧
    f "spec.fits" = some 314 ∧ f "out.xml" = some 214 ∧ f "m.xml" = some 7 :=
  ⟨_, rfl, rfl, rfl, rfl, rfl⟩

example : ∃ f, run { exPars with save := false } exEngine [] exFs = .done 6 f ∧ f "results.dat" = none ∧
    f "spec.fits" = some 2 := ⟨_, rfl, rfl, rfl⟩

example : ∃ f, run { exPars with sfile := "m.xml" } exEngine [] exFs = .refused f := ⟨_, rfl⟩

example : (run exPars exEngine [[("m.xml", 7)]] exFs).fs "other" = exFs "other" :=
  C148_confined _ _ _ _ _ (by unfold IsOutput exPars; decide) (by
    rintro ⟨e, he, c, hc⟩
    simp at he; subst he
    simp at hc)

example : (run { exPars with save := false } exEngine [] exFs).fs "spec.fits" = some 2 :=
  C148_save_no_partial _ _ _ _ _ rfl (by decide) (by decide) (by rintro ⟨e, he, _⟩; cases he)

example : ∃ f, run { exPars with save := false, clobber := true } { exEngine with report := fun _ => (0, false) } []
    exFs = .failed f ∧ f "results.dat" = some 0 :=
  C148_exception_violates _ _ _ _ 5 0 5 6 rfl rfl rfl rfl rfl rfl rfl

example : ∃ f, run { exPars with sfile := "none" } exEngine [] exFs = .done 6 f ∧
    f "results.dat" = some 106 ∧ f "spec.fits" = some 306 :=
  C148_clobber_violates _ _ _ 5 1 2 0 5 6 rfl rfl rfl (by decide) rfl rfl rfl rfl rfl rfl rfl rfl

example : ∃ f, run { exPars with sfile := "r", results := "r" } exEngine [] exFs = .done 6 f ∧
    f "r" = some 206 := ⟨_, rfl, rfl⟩

example : ∃ f, loop exPars exEngine [[("m.xml", 99)]] 0 exFs = .failed f ∧ f "out.xml" = some 206 :=
  C148_last_fit exPars exEngine [("m.xml", 99)] [] 0 6 exFs _ rfl (by decide) (by intro c h; simp [exPars] at h) (by
    intro c hc
    have : c = 99 := by
      have h2 : (some 99 : Option ℕ) = some c := hc
      injection h2 with h2; exact h2.symm
    subst this; rfl)

end Verif.OutFiles
