import Verif.Refit.Model
import Verif.Refit.Spec
import Mathlib.Logic.Function.Iterate

/-!
# C146: the question for a further fit
-/

set_option linter.unusedSimpArgs false
set_option linter.unusedVariables false

namespace Verif.Refit

open Spec

variable {σ : Type}

theorem prompt_yes (l rest : List Char) (h : Yes l) :
    prompt (input (l ++ ['\n'] ++ rest)) = (true, input rest) := by
  rcases h with rfl | rfl <;> simp [prompt, getline, extract, input]

theorem prompt_no (c : Char) (l rest : List Char) (hn : c ≠ '\n') (hy : c ≠ 'y') :
    (prompt (input (c :: l ++ ['\n'] ++ rest))).1 = false := by
  cases l with
  | nil => simp [prompt, getline, extract, input, hn, hy]
  | cons d l =>
    by_cases hd : d = '\n'
    · simp [prompt, getline, extract, input, hn, hy, hd]
    · simp [prompt, getline, extract, input, hn, hy, hd]

theorem prompt_bad (s : In) (h : (s.eof || s.fail) = true) :
    (prompt s).1 = true ∧ ((prompt s).2.eof || (prompt s).2.fail) = true := by
  simp [prompt, getline, h]

theorem stuck (turn : σ → σ) : ∀ (n k : ℕ) (s : σ) (i : In), (i.eof || i.fail) = true →
    ∃ s' i', fitLoop true turn n k s i = .running s' i' ∧ s' = turn^[n] s := by
  intro n
  induction n with
  | zero => intro k s i _; exact ⟨s, i, rfl, rfl⟩
  | succ n ih =>
    intro k s i h
    obtain ⟨h1, h2⟩ := prompt_bad i h
    obtain ⟨s', i', g1, g2⟩ := ih (k + 1) (turn s) _ h2
    refine ⟨s', i', ?_, by rw [g2]; rfl⟩
    rw [fitLoop]
    simp only [if_true, h1, g1]

theorem yes_lines (turn : σ → σ) (n : ℕ) (rest : List Char) : ∀ (lines : List (List Char)) (k : ℕ) (s : σ),
    (∀ l ∈ lines, Yes l) →
    fitLoop true turn (lines.length + n) k s (input (typed lines ++ rest))
      = fitLoop true turn n (k + lines.length) (turn^[lines.length] s) (input rest) := by
  intro lines
  induction lines with
  | nil => intro k s _; simp [typed]
  | cons l lines ih =>
    intro k s h
    have h1 := prompt_yes l (typed lines ++ rest) (h l List.mem_cons_self)
    have he : typed (l :: lines) ++ rest = l ++ ['\n'] ++ (typed lines ++ rest) := by
      simp [typed, List.append_assoc]
    have hl : (l :: lines).length + n = (lines.length + n) + 1 := by simp; omega
    rw [hl, fitLoop, he]
    simp only [if_true, h1]
    rw [ih (k + 1) (turn s) (fun l hl => h l (List.mem_cons_of_mem _ hl))]
    have : k + 1 + lines.length = k + (l :: lines).length := by simp; omega
    rw [this]
    rfl

/-- **C146.** Without `refit` there is one turn and the input is not touched. -/
theorem C146_single_turn (turn : σ → σ) (n : ℕ) (s : σ) (i : In) :
    fitLoop false turn (n + 1) 0 s i = .done (turn s) i 1 := by
  rw [fitLoop]
  simp

/-- **C146.** While the user answers with return or `y` the fit is repeated, and the first line
that begins with another character ends it: the number of fits is one more than the number of
yeses.  (Partial: lines beginning with `y` of more than one character, and the end of the input,
are excluded.) -/
theorem C146_answers_partial (turn : σ → σ) {s : σ} (yes : List (List Char)) (c : Char) (no rest : List Char)
    (hyes : ∀ l ∈ yes, Yes l) (hline : IsLine (c :: no)) (hc : c ≠ 'y') (m : ℕ) :
    ∃ i, fitLoop true turn (yes.length + (m + 1)) 0 s
        (input (typed (yes ++ [c :: no]) ++ rest))
      = .done (turn^[yes.length + 1] s) i (yes.length + 1) := by
  have hn : c ≠ '\n' := fun h => hline (by rw [h]; exact List.mem_cons_self)
  have he : typed (yes ++ [c :: no]) ++ rest = typed yes ++ (c :: no ++ ['\n'] ++ rest) := by
    simp [typed, List.append_assoc]
  rw [he, yes_lines turn (m + 1) _ yes 0 s hyes]
  refine ⟨(prompt (input (c :: no ++ ['\n'] ++ rest))).2, ?_⟩
  rw [fitLoop]
  simp only [if_true, prompt_no c no rest hn hc, Bool.false_eq_true, if_false]
  rw [Nat.zero_add, Function.iterate_succ_apply' turn yes.length s]

/-- **C146 (violation).** An answer of more than one character beginning with `y`, such as `yes`,
is taken as yes, but it leaves the input in the failed state, in which every further question is
answered with yes: whatever the user types afterwards, the fit is repeated without end. -/
theorem C146_yes_violates (turn : σ → σ) (s : σ) (yes : List (List Char)) (d : Char) (l rest : List Char)
    (hyes : ∀ l ∈ yes, Yes l) (hd : d ≠ '\n') (n : ℕ) :
    ∃ s' i', fitLoop true turn (yes.length + 1 + n) 0 s
        (input (typed yes ++ ('y' :: d :: l) ++ rest)) = .running s' i' ∧
      s' = turn^[yes.length + 1 + n] s := by
  have hlen : yes.length + 1 + n = yes.length + (n + 1) := by omega
  rw [hlen, List.append_assoc, yes_lines turn (n + 1) _ yes 0 s hyes]
  have hp : prompt (input ('y' :: d :: l ++ rest)) = (true, ⟨d :: l ++ rest, false, true⟩) := by
    simp [prompt, getline, extract, input, hd]
  rw [fitLoop]
  simp only [if_true, hp]
  obtain ⟨s', i', h1, h2⟩ := stuck turn n (0 + yes.length + 1) (turn (turn^[yes.length] s))
    ⟨d :: l ++ rest, false, true⟩ rfl
  refine ⟨s', i', h1, ?_⟩
  rw [h2, ← Function.iterate_succ_apply' turn yes.length s, ← Function.iterate_add_apply]
  congr 1; omega

/-- **C146 (violation).** The end of the input, as in a batch job without terminal, is taken as yes:
the fit is repeated without end, after any number of answers. -/
theorem C146_end_violates (turn : σ → σ) (s : σ) (yes : List (List Char))
    (hyes : ∀ l ∈ yes, Yes l) (n : ℕ) :
    ∃ s' i', fitLoop true turn (yes.length + n) 0 s (input (typed yes)) = .running s' i' ∧
      s' = turn^[yes.length + n] s := by
  have h0 := yes_lines turn n [] yes 0 s hyes
  rw [List.append_nil] at h0
  rw [h0]
  cases n with
  | zero => exact ⟨_, _, rfl, rfl⟩
  | succ n =>
    have hp : prompt (input []) = (true, ⟨[], true, true⟩) := by
      simp [prompt, getline, extract, input]
    rw [fitLoop]
    simp only [if_true, hp]
    obtain ⟨s', i', h1, h2⟩ := stuck turn n (0 + yes.length + 1) (turn (turn^[yes.length] s))
      ⟨[], true, true⟩ rfl
    refine ⟨s', i', h1, ?_⟩
    rw [h2, ← Function.iterate_succ_apply' turn yes.length s, ← Function.iterate_add_apply]
    congr 1; omega

/-- **C146 (violation).** A capital `Y` is a no. -/
theorem C146_capital_violates (turn : σ → σ) (s : σ) (l rest : List Char) (hl : IsLine l) (n : ℕ) :
    ∃ i, fitLoop true turn (n + 1) 0 s (input (typed ['Y' :: l] ++ rest)) = .done (turn s) i 1 := by
  have h := C146_answers_partial (s := s) turn [] 'Y' l rest (fun l hl => absurd hl (by simp))
    (by intro h; rcases List.mem_cons.1 h with h | h
        · exact absurd h (by decide)
        · exact hl h) (by decide) n
  simpa using h

/-! ### The hypotheses are met -/

/-- Two yeses and `no`, counting the turns. -/
example : ∃ i, fitLoop true (· + 1) 5 0 (0 : ℕ) (input "y\n\nno\n".toList) = .done 3 i 3 := by
  obtain ⟨i, h⟩ := C146_answers_partial (s := (0 : ℕ)) (· + 1) [['y'], []] 'n' ['o'] []
    (by intro l hl; simp only [List.mem_cons, List.not_mem_nil, or_false] at hl
        rcases hl with rfl | rfl
        · exact Or.inr rfl
        · exact Or.inl rfl) (by unfold IsLine; decide) (by decide) 2
  exact ⟨i, h⟩

/-- `yes`, then two times `n`: still running after any number of turns. -/
example (n : ℕ) : ∃ s' i', fitLoop true (· + 1) (0 + 1 + n) 0 (0 : ℕ) (input "yes\nn\nn\n".toList)
    = .running s' i' := by
  obtain ⟨s', i', h, _⟩ := C146_yes_violates (fun x : ℕ => x + 1) 0 [] 'e' ['s'] "\nn\nn\n".toList
    (fun l hl => absurd hl (by simp)) (by decide) n
  exact ⟨s', i', h⟩

/-- No input at all. -/
example (n : ℕ) : ∃ s' i', fitLoop true (· + 1) (0 + n) 0 (0 : ℕ) (input []) = .running s' i' := by
  obtain ⟨s', i', h, _⟩ := C146_end_violates (fun x : ℕ => x + 1) 0 [] (fun l hl => absurd hl (by simp)) n
  exact ⟨s', i', h⟩

example : ∃ i, fitLoop true (· + 1) 1 0 (0 : ℕ) (input (typed ["Yes".toList] ++ [])) = .done 1 i 1 :=
  C146_capital_violates _ _ "es".toList [] (by unfold IsLine; decide) 0

end Verif.Refit
