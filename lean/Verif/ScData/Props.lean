import Mathlib.Tactic.NormNum
import Mathlib.Tactic.Ring
import Mathlib.Tactic.Linarith
import Mathlib.Tactic.FieldSimp
import Mathlib.Tactic.Module
import Mathlib.Topology.Algebra.Order.Field
import Mathlib.Topology.Order.OrderClosed
import Verif.ScData.Spec
/-
C61: the pointing history.
-/
set_option linter.unusedSectionVars false
set_option linter.unusedSimpArgs false
set_option linter.unusedVariables false
namespace Verif.ScData
open Verif.ScData.Spec

variable {V : Type} [NormedAddCommGroup V] [NormedSpace ℝ V]

/-! ### Looking up a time -/

theorem inc_lt {d : List (Row V)} (h : Increasing d) {i j : Nat} (hij : i < j) (hj : j < d.length) :
    (d[i]'(by omega)).start < (d[j]).start :=
  List.pairwise_iff_getElem.1 h i j _ hj hij

/-- The index found for a time within the history. -/
theorem timeIndex_eq {d : List (Row V)} (h : Increasing d) {t : ℝ} {i : Nat} (hi : i < d.length)
    (h1 : (d[i]).start ≤ t) (h2 : ∀ (hs : i + 1 < d.length), t < (d[i + 1]).start)
    (h3 : ∀ l, d[d.length - 1]? = some l → t ≤ l.stop + tol) : timeIndex d t = .ok i := by
  classical
  unfold timeIndex
  have h0 : 0 < d.length := by omega
  rw [List.getElem?_eq_getElem h0, List.getElem?_eq_getElem (show d.length - 1 < d.length by omega)]
  simp only []
  have hf : (d[0]).start ≤ t := by
    rcases Nat.eq_zero_or_pos i with rfl | hp
    · exact h1
    · exact (inc_lt h hp hi).le.trans h1
  have htol : (0 : ℝ) < tol := by unfold tol; norm_num
  rw [if_neg]
  · have key : d.findIdx (fun r => decide (t < r.start)) = i + 1 := by
      rcases Nat.lt_or_ge (i + 1) d.length with hs | hs
      · rw [List.findIdx_eq hs]
        refine ⟨decide_eq_true (h2 hs), fun j hj => ?_⟩
        rw [decide_eq_false_iff_not, not_lt]
        rcases Nat.lt_or_ge j i with hji | hji
        · exact (inc_lt h hji hi).le.trans h1
        · obtain rfl : j = i := by omega
          exact h1
      · have he : d.length = i + 1 := by omega
        rw [← he, List.findIdx_eq_length]
        intro r hr
        obtain ⟨j, hj, rfl⟩ := List.mem_iff_getElem.1 hr
        rw [decide_eq_false_iff_not, not_lt]
        rcases Nat.lt_or_ge j i with hji | hji
        · exact (inc_lt h hji hi).le.trans h1
        · obtain rfl : j = i := by omega
          exact h1
    rw [key]
    simp
  · rintro (hc | hc)
    · linarith
    · have := h3 _ (List.getElem?_eq_getElem (show d.length - 1 < d.length by omega))
      linarith

/-- At a time within a row the livetime fraction is that of the row; between the end of a row
and the start of the next it is zero. -/
theorem C61_livetime (d : List (Row V)) (h : Increasing d) (i : Nat) (hi : i < d.length) (t : ℝ)
    (h1 : (d[i]).start ≤ t) (h2 : ∀ (hs : i + 1 < d.length), t < (d[i + 1]).start)
    (h3 : ∀ l, d[d.length - 1]? = some l → t ≤ l.stop + tol) :
    ((d[i]).start < (d[i]).stop → t ≤ (d[i]).stop →
      livetimefrac d t = .ok ((d[i]).livetime / ((d[i]).stop - (d[i]).start))) ∧
    ((d[i]).stop < t → livetimefrac d t = .ok 0) := by
  unfold livetimefrac rowAt
  rw [timeIndex_eq h hi h1 h2 h3, Res.bind_ok, List.getElem?_eq_getElem hi]
  simp only [Res.bind_ok]
  constructor
  · intro h4 h5
    rw [if_neg (by rintro (h | h) <;> linarith), if_neg (by linarith [h4] : ¬ (d[i]).stop - (d[i]).start = 0)]
  · intro h4
    rw [if_pos (Or.inr h4)]

theorem lerp (t a b : ℝ) (hab : b - a ≠ 0) (u v : V) :
    ((t - a) / (b - a)) • (v - u) + u = ((b - t) / (b - a)) • u + ((t - a) / (b - a)) • v := by
  have : (b - t) / (b - a) = 1 - (t - a) / (b - a) := by field_simp; ring
  rw [this]
  module

theorem unit_eq (v : V) : unit v = ‖v‖⁻¹ • v := by
  unfold unit
  split
  · rename_i h
    rw [norm_eq_zero.1 h, smul_zero]
  · rfl

theorem axis_eq (ax : Row V → V) {d : List (Row V)} {t : ℝ} {i j : Nat} (hi : timeIndex d t = .ok i)
    (h2 : 2 ≤ d.length) (hj : min i (d.length - 2) = j) (hlt : j + 1 < d.length)
    (hne : (d[j]).start < (d[j + 1]).start) :
    axis ax d t = .ok (between t (d[j]).start (d[j + 1]).start (ax d[j]) (ax d[j + 1])) := by
  unfold axis rowAt
  rw [hi, Res.bind_ok]
  simp only []
  rw [if_neg (by omega), hj, List.getElem?_eq_getElem (show j < d.length by omega), List.getElem?_eq_getElem hlt]
  simp only [Res.bind_ok]
  have h : (d[j + 1]).start - (d[j]).start ≠ 0 := by
    intro h
    linarith
  rw [if_neg h, lerp _ _ _ h, unit_eq]
  rfl

/-- Between the starts of two rows the axis moves from the direction of the one to that of the
other; after the start of the last row the motion goes on as in the row before. -/
theorem C61_axis (ax : Row V → V) (d : List (Row V)) (h : Increasing d) (t : ℝ)
    (h3 : ∀ l, d[d.length - 1]? = some l → t ≤ l.stop + tol) (i : Nat) (hi : i + 1 < d.length)
    (h1 : (d[i]).start ≤ t) (h2 : t < (d[i + 1]).start ∨ i + 2 = d.length) :
    axis ax d t = .ok (between t (d[i]).start (d[i + 1]).start (ax d[i]) (ax d[i + 1])) := by
  rcases lt_or_ge t (d[i + 1]).start with hlt | hge
  · exact axis_eq ax (timeIndex_eq h (by omega) h1 (fun _ => hlt) h3) (by omega) (by omega) hi
      (inc_lt h (Nat.lt_succ_self i) hi)
  · have he : i + 2 = d.length := h2.resolve_left (not_lt.2 hge)
    exact axis_eq ax (timeIndex_eq (i := i + 1) h hi hge (fun hs => by omega) h3) (by omega) (by omega) hi
      (inc_lt h (Nat.lt_succ_self i) hi)

/-- At the start of a row the axis is that of the row. -/
theorem C61_nodes (ax : Row V → V) (d : List (Row V)) (h : Increasing d) (h2 : 2 ≤ d.length) (i : Nat)
    (hi : i < d.length) (h1 : ‖ax d[i]‖ = 1)
    (h3 : ∀ l, d[d.length - 1]? = some l → (d[i]).start ≤ l.stop + tol) :
    axis ax d (d[i]).start = .ok (ax d[i]) := by
  rcases Nat.lt_or_ge (i + 1) d.length with hs | hs
  · rw [C61_axis ax d h _ h3 i hs le_rfl (Or.inl (inc_lt h (Nat.lt_succ_self i) hs)), between]
    have hne : (d[i + 1]).start - (d[i]).start ≠ 0 := by
      have := inc_lt h (Nat.lt_succ_self i) hs
      intro h; simp only [Nat.succ_eq_add_one] at this; linarith
    simp only [sub_self, zero_div, zero_smul, add_zero, div_self hne, one_smul, h1, inv_one]
  · obtain ⟨k, rfl⟩ : ∃ k, i = k + 1 := ⟨i - 1, by omega⟩
    have hlt := inc_lt h (Nat.lt_succ_self k) hi
    rw [C61_axis ax d h _ h3 k hi hlt.le (Or.inr (by omega)), between]
    have hne : (d[k + 1]).start - (d[k]).start ≠ 0 := by
      intro h; simp only [Nat.succ_eq_add_one] at hlt; linarith
    simp only [sub_self, zero_div, zero_smul, zero_add, div_self hne, one_smul, h1, inv_one]

/-- The axis computed is a unit vector unless the chord passes through the centre. -/
theorem C61_unit (ax : Row V → V) (d : List (Row V)) (t : ℝ) (v : V) (h : axis ax d t = .ok v) : ‖v‖ = 1 ∨ v = 0 := by
  unfold axis at h
  rw [Res.bind_eq_ok] at h
  obtain ⟨i, _, h⟩ := h
  simp only [] at h
  rw [Res.bind_eq_ok] at h
  obtain ⟨r, _, h⟩ := h
  rw [Res.bind_eq_ok] at h
  obtain ⟨s, _, h⟩ := h
  split at h
  · cases h
  · simp only [Res.ok.injEq] at h
    rw [← h]
    generalize (((t - r.start) / (s.start - r.start)) • (ax s - ax r) + ax r) = w
    unfold unit
    split
    · rename_i hw; right; exact norm_eq_zero.1 hw
    · rename_i hw; left
      rw [norm_smul, norm_inv, norm_norm, inv_mul_cancel₀ hw]

/-- A time outside the history, by more than the tolerance, is refused everywhere. -/
theorem C61_refuses (ax : Row V → V) (d : List (Row V)) (t : ℝ) (f l : Row V) (hf : d[0]? = some f)
    (hl : d[d.length - 1]? = some l) (h : t < f.start - tol ∨ l.stop + tol < t) :
    livetimefrac d t = .throws ∧ axis ax d t = .throws := by
  have : timeIndex d t = .throws := by
    unfold timeIndex
    rw [hf, hl]
    simp only []
    rw [if_pos h]
  exact ⟨by unfold livetimefrac; rw [this]; rfl, by unfold axis; rw [this]; rfl⟩

/-! ### What goes wrong -/

theorem timeIndex_early {d : List (Row V)} (h : Increasing d) (h2 : 0 < d.length) {t : ℝ}
    (h1 : (d[0]).start - tol ≤ t) (h3 : t < (d[0]).start)
    (h4 : ∀ l, d[d.length - 1]? = some l → t ≤ l.stop + tol) : timeIndex d t = .ok npos := by
  classical
  unfold timeIndex
  rw [List.getElem?_eq_getElem h2, List.getElem?_eq_getElem (show d.length - 1 < d.length by omega)]
  simp only []
  rw [if_neg]
  · have : d.findIdx (fun r => decide (t < r.start)) = 0 := by
      rw [List.findIdx_eq h2]
      exact ⟨decide_eq_true h3, fun j hj => by omega⟩
    rw [this]
    simp
  · rintro (hc | hc)
    · linarith
    · have := h4 _ (List.getElem?_eq_getElem (show d.length - 1 < d.length by omega))
      linarith

/-- A time before the history but within the tolerance passes the check of the range, but has no
index: the livetime fraction throws, and the axis is computed from the *last* two rows, by
following their motion backwards over the whole history. -/
theorem C61_early_violates (ax : Row V → V) (d : List (Row V)) (h : Increasing d) (h2 : 2 ≤ d.length)
    (hn : d.length < 2 ^ 64) (t : ℝ) (h1 : (d[0]).start - tol ≤ t) (h3 : t < (d[0]).start)
    (h4 : ∀ l, d[d.length - 1]? = some l → t ≤ l.stop + tol) :
    livetimefrac d t = .throws ∧
    axis ax d t = .ok (between t (d[d.length - 2]).start (d[d.length - 1]).start (ax d[d.length - 2])
      (ax d[d.length - 1])) := by
  have hi := timeIndex_early h (by omega) h1 h3 h4
  constructor
  · unfold livetimefrac rowAt
    rw [hi, Res.bind_ok, List.getElem?_eq_none (by unfold npos; omega)]
    rfl
  · have hj : min npos (d.length - 2) = d.length - 2 := by unfold npos; omega
    have he : d.length - 2 + 1 = d.length - 1 := by omega
    have := axis_eq ax hi h2 hj (by omega) (inc_lt h (by omega) (by omega))
    simp only [he] at this
    exact this

/-- With a single row there is no axis at any time. -/
theorem C61_single_violates (ax : Row V → V) (r : Row V) (t : ℝ) : axis ax [r] t = .throws := by
  unfold axis
  cases h : timeIndex [r] t with
  | throws => rfl
  | ub =>
    unfold timeIndex at h
    simp only [List.length_singleton, Nat.sub_self, List.getElem?_cons_zero] at h
    split at h <;> cases h
  | ok i =>
    rw [Res.bind_ok]
    simp only [List.length_singleton]
    rw [if_pos (by norm_num)]
    unfold rowAt
    cases e : min i (2 ^ 64 + 1 - 2) with
    | zero => rfl
    | succ k => rfl

end Verif.ScData
