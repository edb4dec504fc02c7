import Verif.OutFiles.Model
import Verif.OutFiles.Spec

set_option linter.unusedSectionVars false
set_option linter.unusedSimpArgs false
set_option linter.unusedVariables false

namespace Verif.OutFiles

open Spec

variable {σ α : Type}

theorem put_self (fs : FS α) (n : String) (c : α) : put fs n c n = some c := by simp [put]
theorem put_ne (fs : FS α) {n m : String} (c : α) (h : m ≠ n) : put fs n c m = fs m := by simp [put, h]
theorem rm_self (fs : FS α) (n : String) : rm fs n n = none := by simp [rm]
theorem rm_ne (fs : FS α) {n m : String} (h : m ≠ n) : rm fs n m = fs m := by simp [rm, h]

theorem edit_keep (n : String) : ∀ (e : Edit α) (fs : FS α), (∀ c, (n, c) ∉ e) → edit fs e n = fs n
  | [], fs, _ => rfl
  | (m, c) :: es, fs, h => by
    rw [edit, edit_keep n es _ (fun c' hc => h c' (List.mem_cons_of_mem _ hc)), put_ne]
    rintro rfl
    exact h c (by simp)

/-- The files of a pass. -/
def Turn.fs : Turn σ α → FS α
  | .stop f => f
  | .next _ f => f

theorem print_keep (p : Pars) (g : Engine σ α) (s : σ) (fs : FS α) (n : String) (h : n ≠ p.results) :
    (printFitResults p g s fs).fs n = fs n := by
  unfold printFitResults
  simp only
  by_cases h1 : (g.report s).2 = true
  · rw [if_pos h1]
    by_cases h2 : p.save = true
    · simp [h2, Turn.fs, put_ne _ _ h]
    · simp [h2, Turn.fs, put_ne _ _ h, rm_ne _ h]
  · rw [if_neg h1]
    by_cases h2 : p.save = true
    · simp [h2, Turn.fs, put_ne _ _ h]
    · simp [h2, Turn.fs, put_ne _ _ h]

theorem xml_keep (p : Pars) (g : Engine σ α) (s : σ) (fs : FS α) (n : String)
    (h : ¬ (n = p.sfile ∧ p.sfile ≠ "none")) : writeSourceXml p g s fs n = fs n := by
  unfold writeSourceXml
  by_cases h1 : p.sfile ≠ "none"
  · rw [if_pos h1, put_ne _ _ (fun h2 => h ⟨h2, h1⟩)]
  · rw [if_neg h1]

theorem turn_keep (p : Pars) (g : Engine σ α) (s : σ) (fs : FS α) (n : String) (h : n ≠ p.results)
    (h' : ¬ (n = p.sfile ∧ p.sfile ≠ "none")) : (turn p g s fs).fs n = fs n := by
  unfold turn
  cases fs p.srcmdl with
  | none => rfl
  | some c =>
    simp only
    cases g.read s c with
    | none => rfl
    | some s1 =>
      simp only
      cases g.fit s1 with
      | none => rfl
      | some s2 =>
        simp only
        have := print_keep p g s2 fs n h
        cases hp : printFitResults p g s2 fs with
        | stop f => rw [hp] at this; exact this
        | next s3 f =>
          rw [hp] at this
          simp only [Turn.fs]
          rw [xml_keep p g s3 f n h']
          exact this

/-- What a pass that goes on has done. -/
theorem turn_next {p : Pars} {g : Engine σ α} {s : σ} {fs : FS α} {s' : σ} {f : FS α}
    (h : turn p g s fs = .next s' f) :
    ∃ c s1, fs p.srcmdl = some c ∧ g.read s c = some s1 ∧ g.fit s1 = some s' ∧ (g.report s').2 = true ∧
      f = writeSourceXml p g s' (if p.save then put (put fs p.results g.empty) p.results (g.report s').1
        else rm (put fs p.results g.empty) p.results) := by
  unfold turn at h
  cases hc : fs p.srcmdl with
  | none => rw [hc] at h; cases h
  | some c =>
    rw [hc] at h
    simp only at h
    cases hr : g.read s c with
    | none => rw [hr] at h; cases h
    | some s1 =>
      rw [hr] at h
      simp only at h
      cases hf : g.fit s1 with
      | none => rw [hf] at h; cases h
      | some s2 =>
        rw [hf] at h
        simp only at h
        unfold printFitResults at h
        simp only at h
        by_cases h1 : (g.report s2).2 = true
        · rw [if_pos h1] at h
          simp only at h
          injection h with h2 h3
          subst h2
          refine ⟨c, s1, rfl, hr, hf, h1, ?_⟩
          rw [← h3]
          by_cases h4 : p.save = true <;> simp [h4]
        · rw [if_neg h1] at h
          simp only at h
          cases h

theorem turn_results {p : Pars} {g : Engine σ α} {s : σ} {fs : FS α} {s' : σ} {f : FS α}
    (h : turn p g s fs = .next s' f) (hne : ¬ (p.results = p.sfile ∧ p.sfile ≠ "none")) :
    f p.results = if p.save then some (g.report s').1 else none := by
  obtain ⟨c, s1, _, _, _, _, rfl⟩ := turn_next h
  rw [xml_keep _ _ _ _ _ hne]
  by_cases h1 : p.save = true
  · simp [h1, put_self]
  · simp [h1, rm_self]

theorem turn_sfile {p : Pars} {g : Engine σ α} {s : σ} {fs : FS α} {s' : σ} {f : FS α}
    (h : turn p g s fs = .next s' f) (hne : p.sfile ≠ "none") : f p.sfile = some (g.xml s') := by
  obtain ⟨c, s1, _, _, _, _, rfl⟩ := turn_next h
  unfold writeSourceXml
  rw [if_pos hne, put_self]

theorem finish_keep (p : Pars) (g : Engine σ α) (s : σ) (fs : FS α) (n : String)
    (h : n ≠ p.specfile ∨ p.save = false) : (finish p g s fs).fs n = fs n := by
  unfold finish
  by_cases h1 : p.save = true
  · have h2 : n ≠ p.specfile := by
      rcases h with h | h
      · exact h
      · rw [h1] at h; cases h
    rw [if_pos h1]
    simp only
    by_cases h3 : (g.spec s).2 = true
    · rw [if_pos h3]; simp only [Out.fs]; rw [put_ne _ _ h2, rm_ne _ h2]
    · rw [if_neg h3]; simp only [Out.fs]; rw [put_ne _ _ h2, rm_ne _ h2]
  · rw [if_neg h1]; rfl

theorem finish_done {p : Pars} {g : Engine σ α} {s s' : σ} {fs f : FS α} (h : finish p g s fs = .done s' f) :
    s' = s ∧ (p.save = true → f p.specfile = some (g.spec s).1 ∧ (g.spec s).2 = true) ∧
      ∀ n, n ≠ p.specfile ∨ p.save = false → f n = fs n := by
  have hk := fun n hn => finish_keep p g s fs n hn
  rw [h] at hk
  simp only [Out.fs] at hk
  unfold finish at h
  by_cases h1 : p.save = true
  · rw [if_pos h1] at h
    simp only at h
    by_cases h3 : (g.spec s).2 = true
    · rw [if_pos h3] at h
      injection h with a b
      refine ⟨a.symm, fun _ => ⟨?_, h3⟩, hk⟩
      rw [← b, put_self]
    · rw [if_neg h3] at h; cases h
  · rw [if_neg h1] at h
    injection h with a b
    exact ⟨a.symm, fun h2 => absurd h2 h1, hk⟩

/-- A regular end comes from a last pass. -/
theorem loop_done {p : Pars} {g : Engine σ α} : ∀ (edits : List (Edit α)) (s : σ) (fs : FS α) (s' : σ) (f : FS α),
    loop p g edits s fs = .done s' f →
    ∃ s0 fs0 f0, turn p g s0 fs0 = .next s' f0 ∧ finish p g s' f0 = .done s' f
  | [], s, fs, s', f, h => by
    rw [loop] at h
    cases ht : turn p g s fs with
    | stop f' => rw [ht] at h; cases h
    | next s1 f1 =>
      rw [ht] at h
      simp only at h
      obtain ⟨rfl, _⟩ := finish_done h
      exact ⟨s, fs, f1, ht, h⟩
  | e :: es, s, fs, s', f, h => by
    rw [loop] at h
    cases ht : turn p g s fs with
    | stop f' => rw [ht] at h; cases h
    | next s1 f1 =>
      rw [ht] at h
      simp only at h
      exact loop_done es s1 _ s' f h

theorem loop_keep {p : Pars} {g : Engine σ α} (n : String) (hn : ¬ IsOutput p n) :
    ∀ (edits : List (Edit α)) (s : σ) (fs : FS α), ¬ UserWrites edits n → (loop p g edits s fs).fs n = fs n
  | [], s, fs, _ => by
    have h1 : n ≠ p.results := fun h => hn (Or.inl h)
    have h2 : n ≠ p.specfile := fun h => hn (Or.inr (Or.inl h))
    have h3 : ¬ (n = p.sfile ∧ p.sfile ≠ "none") := fun h => hn (Or.inr (Or.inr h))
    have ht := turn_keep p g s fs n h1 h3
    rw [loop]
    cases hc : turn p g s fs with
    | stop f => rw [hc] at ht; exact ht
    | next s1 f =>
      rw [hc] at ht
      simp only
      rw [finish_keep _ _ _ _ _ (Or.inl h2)]
      exact ht
  | e :: es, s, fs, hu => by
    have h1 : n ≠ p.results := fun h => hn (Or.inl h)
    have h3 : ¬ (n = p.sfile ∧ p.sfile ≠ "none") := fun h => hn (Or.inr (Or.inr h))
    have ht := turn_keep p g s fs n h1 h3
    rw [loop]
    cases hc : turn p g s fs with
    | stop f => rw [hc] at ht; exact ht
    | next s1 f =>
      rw [hc] at ht
      simp only
      rw [loop_keep n hn es s1 _ (fun ⟨e', he', c, hcc⟩ => hu ⟨e', List.mem_cons_of_mem _ he', c, hcc⟩),
        edit_keep n e f (fun c hcc => hu ⟨e, by simp, c, hcc⟩)]
      exact ht

theorem run_done {p : Pars} {g : Engine σ α} {edits : List (Edit α)} {fs f : FS α} {s' : σ}
    (h : run p g edits fs = .done s' f) : ∃ s, g.setup = some s ∧ loop p g edits s fs = .done s' f := by
  unfold run at h
  by_cases h1 : checkOutputFile p.clobber fs p.sfile = true
  · rw [if_pos h1] at h
    cases hs : g.setup with
    | none => rw [hs] at h; cases h
    | some s => rw [hs] at h; exact ⟨s, rfl, h⟩
  · rw [if_neg h1] at h; cases h

end Verif.OutFiles
