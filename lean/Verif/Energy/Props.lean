import Verif.Energy.Lemmas
set_option linter.unusedVariables false
/-
C12: energy grid expansion and log-ratios.
-/
namespace Verif.Energy

open Verif.Vec
open scoped BigOperators

theorem increasing_of_step {l : List ℝ} (h : ∀ m, m + 1 < l.length → val l m < val l (m + 1)) :
    l.Pairwise (· < ·) := by
  rw [pairwise_val]
  intro i j hij hj
  induction j with
  | zero => omega
  | succ j ih =>
    rcases Nat.lt_succ_iff_lt_or_eq.1 hij with h' | h'
    · exact lt_trans (ih h' (by omega)) (h j hj)
    · rw [h']; exact h j hj

/-- C12: expanding a strictly increasing positive grid by `b` bins on each side.  The
original edges sit in the middle, there are `2b` more edges, the grid is positive and
strictly increasing, and below (above) the original grid every bin has the same ratio
of edges as the first (last) original bin. -/
theorem C12_expand_energies (es : List ℝ) (b : Nat) (hlen : 2 ≤ es.length)
    (hpos : ∀ e ∈ es, 0 < e) (hinc : es.Pairwise (· < ·)) :
    ∃ out, expandEnergies es b = .ok out ∧ out.length = es.length + 2 * b ∧
      (out.drop b).take es.length = es ∧ out.Pairwise (· < ·) ∧ (∀ e ∈ out, 0 < e) ∧
      (∀ j < b, val out (j + 1) / val out j = val es 1 / val es 0) ∧
      (∀ j < b, val out (b + es.length + j) / val out (b + es.length + j - 1) =
        val es (es.length - 1) / val es (es.length - 2)) := by
  obtain ⟨out, h1, h2, h3, h4, h5⟩ := expand_ok (b := b) hlen hpos
  have hp : ∀ k < es.length, 0 < val es k := fun k hk => hpos _ (val_mem hk)
  rw [pairwise_val] at hinc
  have h01 : val es 0 < val es 1 := hinc 0 1 (by omega) (by omega)
  have hnm : val es (es.length - 2) < val es (es.length - 1) := hinc _ _ (by omega) (by omega)
  have p0 := hp 0 (by omega)
  have p1 := hp 1 (by omega)
  have pn := hp (es.length - 1) (by omega)
  have pm := hp (es.length - 2) (by omega)
  -- both continuations, including their starting points
  have hL : ∀ i ≤ b, val out (b - i) = contLo es i := by
    intro i hi
    rcases Nat.eq_zero_or_pos i with h | h
    · subst h; simp only [contLo, pow_zero, mul_one]; exact h3 0 (by omega)
    · exact h4 i h hi
  have hH : ∀ i ≤ b, val out (es.length + b + i - 1) = contHi es i := by
    intro i hi
    rcases Nat.eq_zero_or_pos i with h | h
    · subst h; simp only [contHi, pow_zero, mul_one]
      rw [← h3 (es.length - 1) (by omega)]; congr 1; omega
    · exact h5 i h hi
  have hLpos : ∀ i, 0 < contLo es i := fun i => mul_pos p0 (pow_pos (div_pos p0 p1) i)
  have hHpos : ∀ i, 0 < contHi es i := fun i => mul_pos pn (pow_pos (div_pos pn pm) i)
  have hLstep : ∀ i, contLo es (i + 1) = contLo es i * (val es 0 / val es 1) := by
    intro i; unfold contLo; rw [pow_succ]; ring
  have hHstep : ∀ i, contHi es (i + 1) =
      contHi es i * (val es (es.length - 1) / val es (es.length - 2)) := by
    intro i; unfold contHi; rw [pow_succ]; ring
  have hLlt : ∀ i, contLo es (i + 1) < contLo es i := by
    intro i
    rw [hLstep]
    exact mul_lt_of_lt_one_right (hLpos i) ((div_lt_one p1).2 h01)
  have hHlt : ∀ i, contHi es i < contHi es (i + 1) := by
    intro i
    rw [hHstep]
    exact lt_mul_of_one_lt_right (hHpos i) ((one_lt_div pm).2 hnm)
  refine ⟨out, h1, h2, ?_, ?_, ?_, ?_, ?_⟩
  · apply ext_val
    · simp; omega
    · intro k hk
      have hk' : k < es.length := by simp at hk; omega
      rw [← h3 k hk']
      unfold val
      rw [List.getElem?_take, if_pos hk', List.getElem?_drop]
  · apply increasing_of_step
    intro m hm
    rcases Nat.lt_or_ge m b with h | h
    · have e1 := hL (b - m) (by omega)
      have e2 := hL (b - m - 1) (by omega)
      rw [show b - (b - m) = m by omega] at e1
      rw [show b - (b - m - 1) = m + 1 by omega] at e2
      rw [e1, e2]
      have := hLlt (b - m - 1)
      rwa [show b - m - 1 + 1 = b - m by omega] at this
    · rcases Nat.lt_or_ge (m + 1) (b + es.length) with h' | h'
      · have e1 := h3 (m - b) (by omega)
        have e2 := h3 (m + 1 - b) (by omega)
        rw [show b + (m - b) = m by omega] at e1
        rw [show b + (m + 1 - b) = m + 1 by omega] at e2
        rw [e1, e2]
        exact hinc _ _ (by omega) (by omega)
      · have e1 := hH (m + 1 - (b + es.length)) (by omega)
        have e2 := hH (m + 1 - (b + es.length) + 1) (by omega)
        rw [show es.length + b + (m + 1 - (b + es.length)) - 1 = m by omega] at e1
        rw [show es.length + b + (m + 1 - (b + es.length) + 1) - 1 = m + 1 by omega] at e2
        rw [e1, e2]
        exact hHlt _
  · intro e he
    obtain ⟨m, hm, rfl⟩ := mem_val he
    rcases Nat.lt_or_ge m b with h | h
    · have e1 := hL (b - m) (by omega)
      rw [show b - (b - m) = m by omega] at e1
      rw [e1]; exact hLpos _
    · rcases Nat.lt_or_ge m (b + es.length) with h' | h'
      · have e1 := h3 (m - b) (by omega)
        rw [show b + (m - b) = m by omega] at e1
        rw [e1]; exact hp _ (by omega)
      · have e1 := hH (m + 1 - (b + es.length)) (by omega)
        rw [show es.length + b + (m + 1 - (b + es.length)) - 1 = m by omega] at e1
        rw [e1]; exact hHpos _
  · intro j hj
    have e1 := hL (b - j) (by omega)
    have e2 := hL (b - j - 1) (by omega)
    rw [show b - (b - j) = j by omega] at e1
    rw [show b - (b - j - 1) = j + 1 by omega] at e2
    rw [e1, e2, show b - j = b - j - 1 + 1 by omega, hLstep, Nat.add_sub_cancel]
    have := (hLpos (b - j - 1)).ne'
    field_simp
  · intro j hj
    have e1 := hH j (by omega)
    have e2 := hH (j + 1) (by omega)
    rw [show es.length + b + j - 1 = b + es.length + j - 1 by omega] at e1
    rw [show es.length + b + (j + 1) - 1 = b + es.length + j by omega] at e2
    rw [e1, e2, hHstep]
    have := (hHpos j).ne'
    field_simp

/-- The hypotheses are met by the grid 10, 20, 80. -/
example : 2 ≤ ([10, 20, 80] : List ℝ).length ∧ (∀ e ∈ ([10, 20, 80] : List ℝ), 0 < e) ∧
    ([10, 20, 80] : List ℝ).Pairwise (· < ·) := by
  refine ⟨by simp, ?_, ?_⟩
  · intro e he; fin_cases he <;> norm_num
  · norm_num

/-- C12, boundary: a grid with fewer than two edges is returned unchanged, so it does
not get the requested number of edges. -/
theorem C12_short_grid (es : List ℝ) (b : Nat) (h : es.length < 2) :
    expandEnergies es b = .ok es := by
  simp [expandEnergies, h]

/-- C12: the log-ratios of a non-empty grid: one per bin, positive on a strictly
increasing positive grid, and summing to the logarithm of the full range; an empty
grid is rejected. -/
theorem C12_log_energy_ratios (es : List ℝ) :
    (es = [] → logEnergyRatios es = .throws) ∧
    (es ≠ [] → (∀ e ∈ es, 0 < e) → es.Pairwise (· < ·) →
      ∃ r, logEnergyRatios es = .ok r ∧ r.length + 1 = es.length ∧
        (∀ i < r.length, val r i = Real.log (val es (i + 1)) - Real.log (val es i)) ∧
        (∀ x ∈ r, 0 < x) ∧
        r.sum = Real.log (val es (es.length - 1) / val es 0)) := by
  refine ⟨fun h => by simp [logEnergyRatios, h], fun h hpos hinc => ?_⟩
  have hl : 0 < es.length := List.length_pos_iff.2 h
  have hp : ∀ k < es.length, 0 < val es k := fun k hk => hpos _ (val_mem hk)
  rw [pairwise_val] at hinc
  refine ⟨_, logRatios_ok h, by simp; omega, ?_, ?_, ?_⟩
  · intro i hi
    simp only [List.length_map, List.length_range] at hi
    rw [val_map_range _ hi, Real.log_div (hp _ (by omega)).ne' (hp _ (by omega)).ne']
  · intro x hx
    simp only [List.mem_map, List.mem_range] at hx
    obtain ⟨i, hi, rfl⟩ := hx
    apply Real.log_pos
    rw [one_lt_div (hp i (by omega))]
    exact hinc _ _ (by omega) (by omega)
  · have key : ∀ n < es.length, ((List.range n).map
        (fun i => Real.log (val es (i + 1) / val es i))).sum = Real.log (val es n / val es 0) := by
      intro n hn
      induction n with
      | zero => simp [div_self (hp 0 hl).ne']
      | succ n ih =>
        rw [List.range_succ, List.map_append, List.sum_append, ih (by omega)]
        simp only [List.map_cons, List.map_nil, List.sum_cons, List.sum_nil, add_zero]
        rw [Real.log_div (hp _ (by omega)).ne' (hp _ hl).ne',
          Real.log_div (hp _ hn).ne' (hp _ (by omega)).ne',
          Real.log_div (hp _ hn).ne' (hp _ hl).ne']
        ring
    exact key _ (by omega)

end Verif.Energy
