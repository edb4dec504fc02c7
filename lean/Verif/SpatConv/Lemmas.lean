import Verif.SpatConv.Model
import Verif.SpatConv.Spec
import Mathlib.Tactic.Linarith
import Mathlib.Tactic.Ring
import Mathlib.Tactic.FieldSimp
import Mathlib.Tactic.NormNum
import Mathlib.Tactic.Positivity
import Mathlib.Algebra.Order.Field.Basic
set_option linter.unusedSimpArgs false
set_option linter.unusedVariables false
/-
The grid of distances and the interpolation.
-/
namespace Verif.SpatConv
open Verif Spec

variable {D : Type} {g : Geom}

/-- Half the number of steps. -/
noncomputable def half (g : Geom) : Nat := ⌊thetaMax g / g.cmin + 1 / 2⌋₊

theorem nstep_half (g : Geom) : nstep g = half g * 2 := rfl

theorem quot_ge (h : Valid g) : 2 ≤ thetaMax g / g.cmin := by
  obtain ⟨h1, h2, h3⟩ := h
  rw [le_div_iff₀ h1]
  unfold thetaMax
  linarith

theorem half_ge (h : Valid g) : 2 ≤ half g := by
  apply Nat.le_floor
  have := quot_ge h
  push_cast
  linarith

theorem quot_lt (h : Valid g) : thetaMax g < ((half g : ℝ) + 1 / 2) * g.cmin := by
  have h1 : thetaMax g / g.cmin + 1 / 2 < (half g : ℝ) + 1 := Nat.lt_floor_add_one _
  have h2 : thetaMax g / g.cmin < (half g : ℝ) + 1 / 2 := by linarith
  rwa [div_lt_iff₀ h.1] at h2

theorem den_pos (h : Valid g) : 0 < (nstep g : ℝ) - 1 := by
  have := half_ge h
  rw [nstep_half]
  have h2 : (2 : ℝ) ≤ half g := by exact_mod_cast this
  push_cast
  linarith

theorem num_pos (h : Valid g) : 0 < thetaMax g - thetaMin g := by
  obtain ⟨h1, h2, h3⟩ := h
  unfold thetaMax thetaMin
  linarith

theorem step_pos (h : Valid g) : 0 < step g := div_pos (num_pos h) (den_pos h)

/-- The step is at most two thirds of a pixel. -/
theorem step_le (h : Valid g) : step g ≤ 2 / 3 * g.cmin := by
  unfold step
  rw [div_le_iff₀ (den_pos h)]
  have h1 := quot_lt h
  have h2 : (2 : ℝ) ≤ half g := by exact_mod_cast half_ge h
  have h3 := h.1
  rw [nstep_half]
  unfold thetaMin
  push_cast
  nlinarith

theorem theta_zero (g : Geom) : theta g 0 = 0 := if_pos rfl

theorem theta_succ (g : Geom) (i : Nat) : theta g (i + 1) = thetaMin g + (i : ℝ) * step g := by
  unfold theta
  rw [if_neg (by omega)]
  push_cast
  ring

theorem theta_last (h : Valid g) : theta g (nstep g) = thetaMax g := by
  have hn : nstep g ≠ 0 := by
    have := half_ge h
    rw [nstep_half]
    omega
  unfold theta
  rw [if_neg hn]
  unfold step
  have := den_pos h
  field_simp
  ring

theorem theta_lt (h : Valid g) (i : Nat) : theta g i < theta g (i + 1) := by
  cases i with
  | zero =>
    rw [theta_zero, theta_succ]
    have := h.1
    unfold thetaMin
    simp
    linarith
  | succ i =>
    rw [theta_succ, theta_succ]
    have := step_pos h
    push_cast
    linarith

theorem theta_gap (h : Valid g) (i : Nat) : theta g (i + 1) - theta g i ≤ 2 / 3 * g.cmin := by
  cases i with
  | zero =>
    rw [theta_zero, theta_succ]
    have := h.1
    unfold thetaMin
    simp
    linarith
  | succ i =>
    rw [theta_succ, theta_succ]
    have := step_le h
    push_cast
    linarith

theorem theta_nonneg (h : Valid g) : ∀ i, 0 ≤ theta g i
  | 0 => by rw [theta_zero]
  | i + 1 => le_of_lt (lt_of_le_of_lt (theta_nonneg h i) (theta_lt h i))

/-- Interpolation in an increasing list. -/
theorem interp_range {x y : Nat → ℝ} {v : ℝ} : ∀ (n a : Nat), x a ≤ v → v < x (a + n) →
    ∃ i, x i ≤ v ∧ v < x (i + 1) ∧
      interp ((List.range' a (n + 1)).map x) ((List.range' a (n + 1)).map y) v =
        .ok ((v - x i) / (x (i + 1) - x i) * (y (i + 1) - y i) + y i)
  | 0, a, h1, h2 => by
    rw [Nat.add_zero] at h2
    linarith
  | n + 1, a, h1, h2 => by
    rw [List.range'_succ, List.range'_succ]
    simp only [List.map_cons, interp]
    by_cases hv : v < x (a + 1)
    · exact ⟨a, h1, hv, by rw [if_pos hv]⟩
    · obtain ⟨i, k1, k2, k3⟩ := interp_range (y := y) n (a + 1) (not_lt.mp hv) (by
        rw [show a + 1 + n = a + (n + 1) by omega]; exact h2)
      refine ⟨i, k1, k2, ?_⟩
      rw [if_neg hv]
      rw [List.range'_succ] at k3
      simpa using k3

/-- The response at a pixel is interpolated. -/
theorem response_ok (h : Valid g) {s : Src D} {d : D} (hd : Within g s d) :
    ∃ i, theta g i ≤ s.angle d ∧ s.angle d < theta g (i + 1) ∧
      response g s d = .ok ((s.angle d - theta g i) / (theta g (i + 1) - theta g i) *
        (s.resp (theta g (i + 1)) - s.resp (theta g i)) + s.resp (theta g i)) := by
  have hlt : s.angle d < theta g (nstep g) := by
    rw [theta_last h]
    have := h.1
    have := h.2.1
    have := hd.2
    unfold thetaMax
    linarith
  obtain ⟨i, k1, k2, k3⟩ := interp_range (x := theta g) (y := fun i => s.resp (theta g i)) (v := s.angle d) (nstep g) 0
    (by rw [theta_zero]; exact hd.1) (by rw [Nat.zero_add]; exact hlt)
  refine ⟨i, k1, k2, ?_⟩
  unfold response
  rw [if_neg (by linarith)]
  unfold values thetas
  rw [List.map_map, List.range_eq_range']
  exact k3

/-- The error of linear interpolation. -/
theorem interp_error {f : ℝ → ℝ} {L a b v : ℝ} (hf : Smooth f L) (ha : 0 ≤ a) (h1 : a ≤ v) (h2 : v < b) :
    |((v - a) / (b - a) * (f b - f a) + f a) - f v| ≤ L * (b - a) := by
  obtain ⟨hL, hs⟩ := hf
  have hba : 0 < b - a := by linarith
  have ht0 : 0 ≤ (v - a) / (b - a) := div_nonneg (by linarith) hba.le
  have ht1 : (v - a) / (b - a) ≤ 1 := by
    rw [div_le_one hba]
    linarith
  set t := (v - a) / (b - a) with htdef
  have e : (t * (f b - f a) + f a) - f v = (1 - t) * (f a - f v) + t * (f b - f v) := by ring
  have b1 : |f a - f v| ≤ L * (b - a) := by
    refine le_trans (hs a v ha (by linarith)) (mul_le_mul_of_nonneg_left ?_ hL)
    rw [abs_le]
    constructor <;> linarith
  have b2 : |f b - f v| ≤ L * (b - a) := by
    refine le_trans (hs b v (by linarith) (by linarith)) (mul_le_mul_of_nonneg_left ?_ hL)
    rw [abs_le]
    constructor <;> linarith
  rw [e]
  calc |(1 - t) * (f a - f v) + t * (f b - f v)|
      ≤ |(1 - t) * (f a - f v)| + |t * (f b - f v)| := abs_add_le _ _
    _ = (1 - t) * |f a - f v| + t * |f b - f v| := by
        rw [abs_mul, abs_mul, abs_of_nonneg (by linarith : (0 : ℝ) ≤ 1 - t), abs_of_nonneg ht0]
    _ ≤ (1 - t) * (L * (b - a)) + t * (L * (b - a)) :=
        add_le_add (mul_le_mul_of_nonneg_left b1 (by linarith)) (mul_le_mul_of_nonneg_left b2 ht0)
    _ = L * (b - a) := by ring

end Verif.SpatConv
