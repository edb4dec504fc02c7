import Verif.MapSize.Model
import Verif.MapSize.Spec
import Mathlib.Analysis.Real.Pi.Bounds
import Mathlib.Analysis.SpecialFunctions.Trigonometric.Bounds
import Mathlib.Analysis.SpecialFunctions.Trigonometric.Inverse
import Mathlib.Analysis.SpecialFunctions.Trigonometric.Arctan
import Mathlib.Tactic.Linarith
import Mathlib.Tactic.FieldSimp
import Mathlib.Tactic.NormNum
import Mathlib.Tactic.Positivity
set_option linter.unusedVariables false
set_option linter.unusedSimpArgs false
namespace Verif.MapSize
open Verif Real

theorem cornerRadius_eq (sep : Dir → ℝ) (c : Chart) :
    cornerRadius sep c = max (max (max (sep (skyDir c 1 1)) (sep (skyDir c 1 c.n2))) (sep (skyDir c c.n1 c.n2)))
      (sep (skyDir c c.n1 1)) := by
  have key : ∀ a b : ℝ, (if a < b then b else a) = max a b := by
    intro a b
    split_ifs with h
    · exact (max_eq_right h.le).symm
    · exact (max_eq_left (not_lt.1 h)).symm
  simp only [cornerRadius, corners, List.foldl_cons, List.foldl_nil, key]

theorem skyDir_some {c : Chart} {x y : ℝ} {d : Dir} (h : c.dir x y = some d) : skyDir c x y = d := by
  unfold skyDir; rw [h]; rfl

/-- The square of the distance from a point of an interval is not above that of one of the ends. -/
theorem sq_end (u v x x0 : ℝ) (h1 : u ≤ x) (h2 : x ≤ v) : (x - x0) ^ 2 ≤ (u - x0) ^ 2 ∨ (x - x0) ^ 2 ≤ (v - x0) ^ 2 := by
  by_cases h : x ≤ x0
  · left; nlinarith
  · right; push Not at h; nlinarith

/-- The distance in the projection is not below the separation. -/
theorem le_stg {t : ℝ} (h0 : 0 ≤ t) (h1 : t < 180) : t ≤ stg t := by
  unfold stg
  have hp := pi_pos
  have h2 : t * π / 360 < π / 2 := by rw [div_lt_div_iff₀ (by norm_num) (by norm_num)]; nlinarith
  have := le_tan (x := t * π / 360) (by positivity) h2
  calc t = 360 / π * (t * π / 360) := by field_simp
    _ ≤ _ := by gcongr

/-- From above: up to a quarter of a right angle twice. -/
theorem stg_le {t : ℝ} (h0 : 0 ≤ t) (h1 : t ≤ 45) : stg t ≤ t + 4 := by
  unfold stg
  have hp := pi_pos
  have hp3 := pi_lt_d2
  set x := t * π / 360 with hx
  have hx0 : 0 ≤ x := by positivity
  have hx1 : x ≤ 0.4 := by rw [hx, div_le_iff₀ (by norm_num)]; nlinarith
  have hc := one_sub_sq_div_two_le_cos (x := x)
  have hs := sin_le hx0
  have hc2 : 0.92 ≤ cos x := by nlinarith
  have ht : tan x ≤ x / 0.92 := by
    rw [tan_eq_sin_div_cos]
    exact div_le_div₀ hx0 hs (by norm_num) hc2
  calc 360 / π * tan x ≤ 360 / π * (x / 0.92) := by gcongr
    _ = t / 0.92 := by rw [hx]; field_simp
    _ ≤ t + 4 := by rw [div_le_iff₀ (by norm_num)]; linarith

/-- From below, better than the separation itself. -/
theorem stg_ge {t : ℝ} (h0 : 0 ≤ t) (h1 : t < 90) : t ≤ stg t * (1 - (t * 0.00436) ^ 2) := by
  have hp := pi_pos
  have hp3 := pi_gt_d2
  have hpos : 0 ≤ stg t := h0.trans (le_stg h0 (by linarith))
  set y := t * π / 720 with hy
  have hy0 : 0 ≤ y := by positivity
  have hy1 : y < π / 4 := by rw [hy, div_lt_div_iff₀ (by norm_num) (by norm_num)]; nlinarith
  have ht := le_tan hy0 (by linarith)
  have ht1 : tan y < 1 := by
    rw [← tan_pi_div_four]
    exact tan_lt_tan_of_nonneg_of_lt_pi_div_two hy0 (by linarith) hy1
  have h2 : stg t = 360 / π * (2 * tan y / (1 - tan y ^ 2)) := by
    unfold stg
    rw [← tan_two_mul, hy]
    congr 2
    ring
  have h3 : 0 < 1 - tan y ^ 2 := by nlinarith
  have h4 : 0 < 1 - y ^ 2 := by nlinarith
  have h5 : t ≤ stg t * (1 - y ^ 2) := by
    have e : t = 360 / π * (2 * y) := by rw [hy]; field_simp; ring
    have : y ≤ tan y / (1 - tan y ^ 2) * (1 - y ^ 2) := by
      rw [div_mul_eq_mul_div, le_div_iff₀ h3]
      nlinarith [mul_nonneg (sub_nonneg.2 ht) (add_nonneg zero_le_one (mul_nonneg hy0 (hy0.trans ht)))]
    calc t = 360 / π * (2 * y) := e
      _ ≤ 360 / π * (2 * (tan y / (1 - tan y ^ 2) * (1 - y ^ 2))) := by gcongr
      _ = _ := by rw [h2]; ring
  have h6 : (t * 0.00436) ^ 2 ≤ y ^ 2 := by
    apply pow_le_pow_left₀ (by positivity)
    rw [hy, le_div_iff₀ (by norm_num)]
    nlinarith
  nlinarith

/-- The coordinates are at most the distance in the plane away from the reference pixel. -/
theorem position_on {h : Nat} {c theta phi : ℝ} (hc : 0 < c) (h0 : 0 ≤ stg theta) (h1 : stg theta ≤ h * c) :
    Spec.OnMap (2 * h) (position h c theta phi) := by
  have k : stg theta / c ≤ h := by rw [div_le_iff₀ hc]; exact h1
  have k0 : 0 ≤ stg theta / c := div_nonneg h0 hc.le
  have a1 := neg_one_le_sin phi
  have a2 := sin_le_one phi
  have b1 := neg_one_le_cos phi
  have b2 := cos_le_one phi
  have e1 : stg theta * sin phi / c = stg theta / c * sin phi := by ring
  have e2 : stg theta * cos phi / c = stg theta / c * cos phi := by ring
  unfold Spec.OnMap position
  simp only [e1, e2]
  push_cast
  refine ⟨?_, ?_, ?_, ?_⟩ <;> nlinarith

/-- On the axis of the longitudes the distance counts in full. -/
theorem position_off {h : Nat} {c theta : ℝ} (hc : 0 < c) (h1 : (h : ℝ) * c < stg theta) :
    (position h c theta (π / 2)).1 < 1 / 2 := by
  unfold position
  have k : (h : ℝ) < stg theta / c := by rw [lt_div_iff₀ hc]; exact h1
  simp only [sin_pi_div_two, mul_one]
  linarith

/-- A position left of a map that does not go around the sky has no value. -/
theorem plane_off (m : Wcs.Map) (x y : ℝ) (hm : m.periodic = false) (hx : x < 1 / 2) : m.plane (some (x, y)) 0 = .ok 0 := by
  unfold Wcs.Map.plane Wcs.Map.checkIndex
  rw [if_neg (by omega)]
  simp only [hm, Res.bind_ok]
  have h : (decide (x < 0.5) : Bool) = true := decide_eq_true (by norm_num at hx ⊢; linarith)
  simp [h]

/-- Half of the map: it has at most the size asked for. -/
theorem half_le (fn : Bool) {radius c : ℝ} (hc : 0 < c) (hr : 0 ≤ radius) :
    (half fn radius c : ℝ) * c ≤ radius + if fn then c else 10 := by
  have hx : 0 ≤ min 180 (radius + if fn then c else 10) / c := by
    apply div_nonneg _ hc.le
    apply le_min (by norm_num)
    split_ifs <;> linarith
  unfold half
  rw [Int.floor_toNat]
  have := Nat.floor_le hx
  calc _ ≤ min 180 (radius + if fn then c else 10) / c * c := by gcongr
    _ = min 180 (radius + if fn then c else 10) := by field_simp
    _ ≤ _ := min_le_right _ _

/-- And it misses less than a pixel of it. -/
theorem lt_half (fn : Bool) {radius c : ℝ} (hc : 0 < c) :
    min 180 (radius + if fn then c else 10) - c < (half fn radius c : ℝ) * c := by
  unfold half
  rw [Int.floor_toNat]
  have := Nat.lt_floor_add_one (min 180 (radius + if fn then c else 10) / c)
  rw [div_lt_iff₀ hc] at this
  linarith

end Verif.MapSize
