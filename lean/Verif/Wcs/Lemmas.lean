import Verif.Wcs.Model
import Verif.Wcs.Spec
import Mathlib.Algebra.BigOperators.Ring.Finset
import Mathlib.Tactic.Linarith
import Mathlib.Tactic.LinearCombination
import Mathlib.Tactic.NormNum
/-
Lemmas about maps.
-/
set_option linter.unusedSectionVars false
set_option linter.unusedSimpArgs false
set_option linter.unusedVariables false
namespace Verif.Wcs
open Verif.Wcs.Spec

theorem trunc_nonneg {x : ℝ} (h : 0 ≤ x) : trunc x = ⌊x⌋ := if_pos h

/-- Rounding picks the pixel that contains the position. -/
theorem myRound_eq {x : ℝ} {i : Nat} (h1 : (i : ℝ) - 1 / 2 ≤ x) (h2 : x < i + 1 / 2) (h0 : 0 ≤ x) : myRound x = i := by
  unfold myRound
  simp only []
  rw [trunc_nonneg h0]
  have hf := Int.floor_le x
  have hg := Int.lt_floor_add_one x
  split
  · rename_i h
    have a : (⌊x⌋ : ℝ) + 1 < i + 1 := by linarith
    have b : (i : ℝ) < ⌊x⌋ + 1 + 1 := by linarith
    have a' : ⌊x⌋ + 1 < (i : ℤ) + 1 := by exact_mod_cast a
    have b' : (i : ℤ) < ⌊x⌋ + 1 + 1 := by exact_mod_cast b
    omega
  · rename_i h
    have a : (⌊x⌋ : ℝ) < i + 1 := by linarith
    have b : (i : ℝ) < ⌊x⌋ + 1 := by have := not_le.1 h; linarith
    have a' : ⌊x⌋ < (i : ℤ) + 1 := by exact_mod_cast a
    have b' : (i : ℤ) < ⌊x⌋ + 1 := by exact_mod_cast b
    omega

theorem at_eq {m : Map} {nE : Nat} (h : Rect m.image nE m.n1 m.n2) {k : Nat} (hk : k < nE) {i j : Nat} (hi : i < m.n1)
    (hj : j < m.n2) : m.at k (j : ℤ) (i : ℤ) = .ok (pixel m.image k (i + 1) (j + 1)) := by
  have h1 : k < m.image.length := by rw [h.planes]; exact hk
  obtain ⟨hr, hc⟩ := h.rows _ (List.getElem_mem h1)
  have h2 : j < (m.image[k]).length := by rw [hr]; exact hj
  have h3 : i < ((m.image[k])[j]).length := by rw [hc _ (List.getElem_mem h2)]; exact hi
  unfold Map.at pixel
  rw [List.getElem?_eq_getElem h1]
  simp only [Int.toNat_natCast]
  rw [if_neg (by omega), List.getElem?_eq_getElem h2]
  simp only []
  rw [if_neg (by omega), List.getElem?_eq_getElem h3]
  simp only [Nat.add_sub_cancel, List.getD_eq_getElem?_getD, List.getElem?_eq_getElem h1, Option.getD_some,
    List.getElem?_eq_getElem h2, List.getElem?_eq_getElem h3]

theorem back_eq {m : Map} {nE : Nat} (h : Rect m.image nE m.n1 m.n2) {k : Nat} (hk : k < nE) {j : Nat}
    (hj : j < m.n2) : m.back k (j : ℤ) = .ok (pixel m.image k m.n1 (j + 1)) := by
  have h1 : k < m.image.length := by rw [h.planes]; exact hk
  obtain ⟨hr, hc⟩ := h.rows _ (List.getElem_mem h1)
  have h2 : j < (m.image[k]).length := by rw [hr]; exact hj
  have h4 := hc _ (List.getElem_mem h2)
  have h3 : m.n1 - 1 < ((m.image[k])[j]).length := by rw [h4]; have := h.pos; omega
  unfold Map.back pixel
  rw [List.getElem?_eq_getElem h1]
  simp only [Int.toNat_natCast]
  rw [if_neg (by omega), List.getElem?_eq_getElem h2]
  simp only []
  rw [List.getLast?_eq_getElem?, h4, List.getElem?_eq_getElem h3]
  simp only [Nat.add_sub_cancel, List.getD_eq_getElem?_getD, List.getElem?_eq_getElem h1, Option.getD_some,
    List.getElem?_eq_getElem h2, List.getElem?_eq_getElem h3]

theorem tent_of_far {t : ℝ} (h : 1 ≤ |t|) : tent t = 0 := max_eq_left (by linarith)

theorem tent_of_near {t : ℝ} (h : |t| ≤ 1) : tent t = 1 - |t| := max_eq_right (by linarith)

theorem tent_nonneg (t : ℝ) : 0 ≤ tent t := le_max_left _ _

/-- A sum of tents has two terms. -/
theorem sum_tent (n : Nat) (a : Nat → ℝ) {x : ℝ} (h1 : 1 ≤ x) (h2 : x < n) :
    ∑ i ∈ Finset.range n, tent (x - (i + 1)) * a i =
      (1 - (x - ⌊x⌋₊)) * a (⌊x⌋₊ - 1) + (x - ⌊x⌋₊) * a ⌊x⌋₊ := by
  have hx0 : 0 ≤ x := by linarith
  have hf := Nat.floor_le hx0
  have hg := Nat.lt_floor_add_one x
  have hp : 1 ≤ ⌊x⌋₊ := Nat.le_floor (by exact_mod_cast h1)
  have hl : ⌊x⌋₊ < n := (Nat.floor_lt hx0).2 h2
  have hne : ⌊x⌋₊ - 1 ≠ ⌊x⌋₊ := by omega
  have hc : ((⌊x⌋₊ - 1 : Nat) : ℝ) = (⌊x⌋₊ : ℝ) - 1 := by rw [Nat.cast_sub hp]; simp
  rw [← Finset.sum_subset (s₁ := {⌊x⌋₊ - 1, ⌊x⌋₊})]
  · rw [Finset.sum_pair hne]
    congr 1
    · rw [hc, tent_of_near, abs_of_nonneg] <;> [ring; linarith; (rw [abs_of_nonneg] <;> linarith)]
    · rw [tent_of_near, abs_of_nonpos] <;> [ring; linarith; (rw [abs_of_nonpos] <;> linarith)]
  · intro i hi
    simp only [Finset.mem_insert, Finset.mem_singleton] at hi
    rw [Finset.mem_range]
    omega
  · intro i _ hi
    simp only [Finset.mem_insert, Finset.mem_singleton, not_or] at hi
    rw [tent_of_far, zero_mul]
    rcases lt_or_ge i (⌊x⌋₊ - 1) with hlt | hge
    · have : (i : ℝ) + 1 ≤ (⌊x⌋₊ : ℝ) - 1 := by rw [← hc]; exact_mod_cast hlt
      rw [abs_of_nonneg] <;> linarith
    · have : (⌊x⌋₊ : ℝ) + 1 ≤ i := by
        have : ⌊x⌋₊ + 1 ≤ i := by omega
        exact_mod_cast this
      rw [abs_of_nonpos] <;> linarith

/-- The sum of the tents is one. -/
theorem sum_tent_one (n : Nat) {x : ℝ} (h1 : 1 ≤ x) (h2 : x < n) : ∑ i ∈ Finset.range n, tent (x - (i + 1)) = 1 := by
  have := sum_tent n (fun _ => 1) h1 h2
  simp only [mul_one] at this
  rw [this]
  ring

/-- On the cylinder, left of the first pixel. -/
theorem sum_seam (n : Nat) (a : Nat → ℝ) {x : ℝ} (hn : 0 < n) (h1 : 0 ≤ x) (h2 : x < 1) :
    ∑ i ∈ Finset.range n, (tent (x - (i + 1)) + tent (x + n - (i + 1))) * a i = (1 - x) * a (n - 1) + x * a 0 := by
  simp only [add_mul]
  rw [Finset.sum_add_distrib]
  have e1 : ∑ i ∈ Finset.range n, tent (x - (i + 1)) * a i = x * a 0 := by
    rw [Finset.sum_eq_single_of_mem 0 (Finset.mem_range.2 hn)]
    · rw [tent_of_near, abs_of_nonpos] <;> [(push_cast; ring); (push_cast; linarith);
        (rw [abs_of_nonpos] <;> push_cast <;> linarith)]
    · intro i _ hi
      rw [tent_of_far, zero_mul]
      have : (1 : ℝ) ≤ i := by
        have : 1 ≤ i := by omega
        exact_mod_cast this
      rw [abs_of_nonpos] <;> linarith
  have e2 : ∑ i ∈ Finset.range n, tent (x + n - (i + 1)) * a i = (1 - x) * a (n - 1) := by
    rw [Finset.sum_eq_single_of_mem (n - 1) (Finset.mem_range.2 (by omega))]
    · have hc : ((n - 1 : Nat) : ℝ) = (n : ℝ) - 1 := by rw [Nat.cast_sub hn]; simp
      rw [hc, tent_of_near, abs_of_nonneg] <;> [ring; linarith; (rw [abs_of_nonneg] <;> linarith)]
    · intro i hi hne
      rw [Finset.mem_range] at hi
      rw [tent_of_far, zero_mul]
      have : (i : ℝ) + 1 + 1 ≤ n := by
        have : i + 1 + 1 ≤ n := by omega
        exact_mod_cast this
      rw [abs_of_nonneg] <;> linarith
  rw [e1, e2]
  ring

theorem sum_no_seam (n : Nat) (a : Nat → ℝ) {x : ℝ} (h1 : 1 ≤ x) :
    ∑ i ∈ Finset.range n, (tent (x - (i + 1)) + tent (x + n - (i + 1))) * a i =
      ∑ i ∈ Finset.range n, tent (x - (i + 1)) * a i := by
  refine Finset.sum_congr rfl fun i hi => ?_
  rw [Finset.mem_range] at hi
  have : (i : ℝ) + 1 ≤ n := by exact_mod_cast hi
  rw [tent_of_far (t := x + n - (i + 1)) (by rw [abs_of_nonneg] <;> linarith), add_zero]

theorem swap_tents (n1 n2 : Nat) (w : Nat → ℝ) (v : Nat → ℝ) (p : Nat → Nat → ℝ) :
    ∑ j ∈ Finset.range n2, ∑ i ∈ Finset.range n1, w i * v j * p i j =
      ∑ j ∈ Finset.range n2, v j * ∑ i ∈ Finset.range n1, w i * p i j := by
  refine Finset.sum_congr rfl fun j _ => ?_
  rw [Finset.mul_sum]
  exact Finset.sum_congr rfl fun i _ => by ring

theorem floor_cast {x : ℝ} (h : 0 ≤ x) : ⌊x⌋ = (⌊x⌋₊ : ℤ) := (Int.natCast_floor_eq_floor h).symm

theorem fmod_nonneg {x n : ℝ} (hn : 0 < n) (h : 0 ≤ x) : 0 ≤ fmod x n ∧ fmod x n < n := by
  unfold fmod
  rw [trunc_nonneg (div_nonneg h hn.le)]
  have h1 := Int.floor_le (x / n)
  have h2 := Int.lt_floor_add_one (x / n)
  rw [le_div_iff₀ hn] at h1
  rw [div_lt_iff₀ hn] at h2
  constructor <;> linarith

theorem fmod_of_lt {x n : ℝ} (hn : 0 < n) (h : 0 ≤ x) (hl : x < n) : fmod x n = x := by
  unfold fmod
  rw [trunc_nonneg (div_nonneg h hn.le), Int.floor_eq_zero_iff.2 ⟨div_nonneg h hn.le, (div_lt_one hn).2 hl⟩]
  simp

theorem fmod_add {x n : ℝ} (hn : 0 < n) (h : 0 ≤ x) : fmod (x + n) n = fmod x n := by
  unfold fmod
  rw [trunc_nonneg (div_nonneg h hn.le), trunc_nonneg (div_nonneg (by linarith) hn.le), add_div, div_self hn.ne',
    Int.floor_add_one]
  push_cast
  ring

theorem checkIndex_ok {m : Map} {k : Nat} (h : k < m.energies.length) : m.checkIndex k = .ok () :=
  if_neg (by omega)

end Verif.Wcs
