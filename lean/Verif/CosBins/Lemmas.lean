import Verif.Energy.Lemmas
import Verif.CosBins.Model
import Verif.CosBins.Spec
import Mathlib.Tactic.Linarith
import Mathlib.Tactic.FieldSimp
import Mathlib.Tactic.Ring

set_option linter.unusedVariables false
set_option linter.unusedSimpArgs false

namespace Verif.CosBins

/-- The fraction of a bound. -/
noncomputable def frac (root : Bool) (n i : Nat) : ℝ := if root then (i : ℝ) / n * ((i : ℝ) / n) else (i : ℝ) / n

/-- A bound. -/
noncomputable def edge (root : Bool) (c : ℝ) (n i : Nat) : ℝ := 1 - frac root n i * (1 - c)

theorem compute_ok (root : Bool) (c : ℝ) {n : Nat} (hn : 0 < n) :
    computeCosbins root c n = .ok ((List.range (n + 1)).map (edge root c n)) := by
  unfold computeCosbins
  refine mapM_ok _ _ _ (fun i _ => ?_)
  unfold bound edge frac
  rw [if_neg (by omega)]

theorem write_ok (root : Bool) (c : ℝ) {n : Nat} (hn : 0 < n) :
    writeCosbins root c n = .ok ((List.range n).map (fun i => (edge root c n (i + 1), edge root c n i))) := by
  unfold writeCosbins
  rw [compute_ok root c hn, Res.bind_ok]
  simp only [List.length_map, List.length_range, Nat.add_sub_cancel]
  refine mapM_ok _ _ _ (fun i hi => ?_)
  rw [List.mem_range] at hi
  have h1 : vget ((List.range (n + 1)).map (edge root c n)) (i + 1) = .ok (edge root c n (i + 1)) := by
    unfold vget; rw [List.getElem?_map, List.getElem?_range (by omega)]; rfl
  have h2 : vget ((List.range (n + 1)).map (edge root c n)) i = .ok (edge root c n i) := by
    unfold vget; rw [List.getElem?_map, List.getElem?_range (by omega)]; rfl
  rw [h1, h2]
  rfl

theorem frac_zero (root : Bool) (n : Nat) : frac root n 0 = 0 := by unfold frac; split <;> simp

theorem frac_last (root : Bool) {n : Nat} (hn : 0 < n) : frac root n n = 1 := by
  have : (n : ℝ) ≠ 0 := by exact_mod_cast hn.ne'
  unfold frac; split <;> field_simp

/-- Not deeper than the bound `i`. -/
theorem edge_le (root : Bool) {c : ℝ} (hc : c < 1) {n : Nat} (hn : 0 < n) (i : Nat) {mu : ℝ} (hm : mu ≤ 1) :
    mu ≤ edge root c n i ↔ (i : ℝ) ≤ n * Spec.depth root c mu := by
  have hn' : (0 : ℝ) < n := by exact_mod_cast hn
  have hc' : 0 < 1 - c := by linarith
  have hi : (0 : ℝ) ≤ i := Nat.cast_nonneg i
  have hq : 0 ≤ (1 - mu) / (1 - c) := div_nonneg (by linarith) hc'.le
  unfold edge frac Spec.depth
  cases root with
  | false =>
    simp only [Bool.false_eq_true, if_false]
    rw [show (mu ≤ 1 - (i : ℝ) / n * (1 - c)) ↔ ((i : ℝ) / n ≤ (1 - mu) / (1 - c)) by
      rw [le_div_iff₀ hc']; constructor <;> intro h <;> linarith]
    rw [div_le_iff₀ hn', mul_comm]
  | true =>
    simp only [if_true]
    rw [show (mu ≤ 1 - (i : ℝ) / n * ((i : ℝ) / n) * (1 - c)) ↔ ((i : ℝ) / n * ((i : ℝ) / n) ≤ (1 - mu) / (1 - c)) by
      rw [le_div_iff₀ hc']; constructor <;> intro h <;> linarith]
    rw [← pow_two, ← Real.le_sqrt (div_nonneg hi hn'.le) hq, div_le_iff₀ hn', mul_comm]

theorem readBounds_length (l : List (ℝ × ℝ)) : (readBounds l).length = 2 * l.length := by
  induction l with
  | nil => rfl
  | cons r rs ih => simp only [readBounds, List.length_cons, ih]; omega

theorem readBounds_inj : ∀ {l l' : List (ℝ × ℝ)}, readBounds l = readBounds l' → l = l'
  | [], [], _ => rfl
  | [], r :: rs, h => by simp [readBounds] at h
  | r :: rs, [], h => by simp [readBounds] at h
  | r :: rs, r' :: rs', h => by
    simp only [readBounds, List.cons.injEq] at h
    rw [readBounds_inj h.2.2, Prod.ext h.1 h.2.1]

/-- The rows, for any binning. -/
noncomputable def rowsOf (root : Bool) (c : ℝ) (n : Nat) : List (ℝ × ℝ) := (List.range n).map (fun i => (edge root c n (i + 1), edge root c n i))

theorem rows_eq {root root' : Bool} {c c' : ℝ} {n n' : Nat} (hn : 0 < n) (hc : c < 1) :
    rowsOf root c n = rowsOf root' c' n' ↔ n = n' ∧ c = c' ∧ (root = root' ∨ n = 1) := by
  constructor
  · intro h
    have hl : n = n' := by
      have := congrArg List.length h
      simpa [rowsOf] using this
    subst hl
    have he : ∀ i < n, edge root c n (i + 1) = edge root' c' n (i + 1) := by
      intro i hi
      have := congrArg (fun l => l[i]?) h
      simp only [rowsOf, List.getElem?_map, List.getElem?_range hi, Option.map_some, Option.some.injEq, Prod.mk.injEq] at this
      exact this.1
    have h1 := he (n - 1) (by omega)
    rw [Nat.sub_add_cancel (by omega)] at h1
    unfold edge at h1
    rw [frac_last root hn, frac_last root' hn] at h1
    have hcc : c = c' := by linarith
    subst hcc
    refine ⟨rfl, rfl, ?_⟩
    by_cases hr : root = root'
    · exact Or.inl hr
    · right
      have h2 := he 0 hn
      unfold edge at h2
      have h3 : frac root n (0 + 1) = frac root' n (0 + 1) := by
        have hx : (frac root n (0 + 1) - frac root' n (0 + 1)) * (1 - c) = 0 := by linarith
        rcases mul_eq_zero.mp hx with hx | hx <;> linarith
      have hn' : (n : ℝ) ≠ 0 := by exact_mod_cast hn.ne'
      have h4 : (1 : ℝ) / n * (1 / n) = 1 / n := by
        unfold frac at h3
        cases root <;> cases root' <;> simp at hr h3 <;> field_simp <;> field_simp at h3 <;> linarith
      field_simp at h4
      exact_mod_cast h4.symm
  · rintro ⟨rfl, rfl, rfl | rfl⟩
    · rfl
    · unfold rowsOf
      refine List.map_congr_left (fun i hi => ?_)
      rw [List.mem_range] at hi
      obtain rfl : i = 0 := by omega
      unfold edge
      rw [frac_zero, frac_zero, frac_last root Nat.one_pos, frac_last root' Nat.one_pos]

end Verif.CosBins
