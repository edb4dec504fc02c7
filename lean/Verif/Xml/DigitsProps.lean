import Verif.Xml.Digits
import Mathlib.Tactic.Linarith
import Mathlib.Tactic.NormNum
import Mathlib.Tactic.Positivity
import Mathlib.Tactic.FieldSimp
import Mathlib.Tactic.Ring
import Mathlib.Algebra.Order.Round
import Mathlib.Algebra.Order.Field.Power
/-
C77: the numbers in a model file.
-/
set_option linter.unusedVariables false
namespace Verif.Xml

/-- The specification: a decimal number with at most 15 digits. -/
def Spec.Decimal15 (t : ℝ) : Prop := ∃ k j : ℤ, t = k * (10 : ℝ) ^ j ∧ |k| < 10 ^ 15

/-- The specification: not so small that floating point numbers lose digits. -/
def Spec.Normal (t : ℝ) : Prop := (2 : ℝ) ^ (-1022 : ℤ) ≤ |t|

theorem lastDigit_pos (x : ℝ) : 0 < lastDigit x := by
  unfold lastDigit; positivity

theorem lastDigit_eq (x : ℝ) : (10 : ℝ) ^ Int.log 10 |x| = 10 ^ 14 * lastDigit x := by
  unfold lastDigit precision
  rw [show (10 : ℝ) ^ 14 = (10 : ℝ) ^ (14 : ℤ) by norm_num, ← zpow_add₀ (by norm_num)]
  congr 1
  push_cast
  ring

theorem lastDigit_le {x : ℝ} (hx : x ≠ 0) : 10 ^ 14 * lastDigit x ≤ |x| := by
  rw [← lastDigit_eq]
  have := Int.zpow_log_le_self (b := 10) (by norm_num) (abs_pos.2 hx)
  simpa using this

theorem lt_lastDigit (x : ℝ) : |x| < 10 ^ 15 * lastDigit x := by
  have h := Int.lt_zpow_succ_log_self (b := 10) (by norm_num) |x|
  push_cast at h
  rw [zpow_add₀ (by norm_num), lastDigit_eq] at h
  calc |x| < 10 ^ 14 * lastDigit x * 10 ^ (1 : ℤ) := h
    _ = 10 ^ 15 * lastDigit x := by norm_num; ring

/-- **C77** (partial).  A number in the file is the number of the model to a relative accuracy of
half a unit in the 15th digit.

Missing: a number of the model has up to 17 digits (`C77_exact_violates`). -/
theorem C77_close_partial (x y : ℝ) (hx : x ≠ 0) (h : Printed x y) :
    |x - y| ≤ |x| / (2 * 10 ^ 14) := by
  have h1 := lastDigit_le hx
  have h2 := h.2
  rw [le_div_iff₀ (by norm_num)]
  nlinarith

/-- Multiples of a power of ten are multiples of every smaller power of ten. -/
theorem mul_zpow_of_le (k : ℤ) {i j : ℤ} (h : i ≤ j) :
    ∃ k' : ℤ, (k : ℝ) * (10 : ℝ) ^ j = k' * (10 : ℝ) ^ i := by
  refine ⟨k * 10 ^ (j - i).toNat, ?_⟩
  have : (10 : ℝ) ^ j = (10 : ℝ) ^ (j - i).toNat * (10 : ℝ) ^ i := by
    rw [← zpow_natCast, ← zpow_add₀ (by norm_num)]
    congr 1
    omega
  rw [this]
  push_cast
  ring

/-- A decimal number of 15 digits on its own grid. -/
theorem decimal_grid {t : ℝ} (ht : t ≠ 0) (h : Spec.Decimal15 t) :
    ∃ k : ℤ, t = k * lastDigit t := by
  obtain ⟨k, j, rfl, hk⟩ := h
  unfold lastDigit precision
  apply mul_zpow_of_le
  have hlt : |(k : ℝ) * (10 : ℝ) ^ j| < ((10 : ℕ) : ℝ) ^ (15 + j) := by
    rw [abs_mul, abs_of_pos (show (0 : ℝ) < (10 : ℝ) ^ j by positivity)]
    push_cast
    rw [zpow_add₀ (by norm_num)]
    apply mul_lt_mul_of_pos_right _ (by positivity)
    have : ((|k| : ℤ) : ℝ) < ((10 ^ 15 : ℤ) : ℝ) := by exact_mod_cast hk
    rw [Int.cast_abs] at this
    calc |(k : ℝ)| < ((10 ^ 15 : ℤ) : ℝ) := this
      _ = (10 : ℝ) ^ (15 : ℤ) := by norm_num
  have := (Int.lt_zpow_iff_log_lt (b := 10) (by norm_num) (abs_pos.2 ht)).1 hlt
  push_cast
  omega

/-- The heart: a number close to a decimal of 15 digits is printed as that decimal. -/
theorem printed_of_close {t d y : ℝ} (ht : t ≠ 0) (hdec : Spec.Decimal15 t)
    (hd : |d - t| ≤ |t| / 2 ^ 53) (hy : Printed d y) : y = t := by
  have htpos := abs_pos.2 ht
  obtain ⟨k, hk⟩ := decimal_grid ht hdec
  have hLt := lastDigit_pos t
  have hLd := lastDigit_pos d
  -- the decimal is at most all nines
  have hmax : |t| ≤ (10 ^ 15 - 1) * lastDigit t := by
    have h1 := lt_lastDigit t
    have h2 : |t| = ((|k| : ℤ) : ℝ) * lastDigit t := by
      conv_lhs => rw [hk]
      rw [abs_mul, abs_of_pos hLt, Int.cast_abs]
    rw [h2] at h1 ⊢
    have h3 : ((|k| : ℤ) : ℝ) < 10 ^ 15 := lt_of_mul_lt_mul_right h1 hLt.le
    have h4 : |k| < 10 ^ 15 := by exact_mod_cast h3
    have h5 : |k| ≤ 10 ^ 15 - 1 := by omega
    have h6 : ((|k| : ℤ) : ℝ) ≤ 10 ^ 15 - 1 := by exact_mod_cast h5
    exact mul_le_mul_of_nonneg_right h6 hLt.le
  have hdt : |d| ≤ |t| + |t| / 2 ^ 53 := by
    calc |d| = |t + (d - t)| := by congr 1; ring
      _ ≤ |t| + |d - t| := abs_add_le _ _
      _ ≤ _ := by linarith
  have htd : |t| - |t| / 2 ^ 53 ≤ |d| := by
    have : |t| ≤ |d| + |d - t| := by
      calc |t| = |d - (d - t)| := by congr 1; ring
        _ ≤ |d| + |d - t| := abs_sub _ _
    linarith
  have hdne : d ≠ 0 := by
    rintro rfl
    rw [abs_zero] at htd
    have : |t| / 2 ^ 53 < |t| := by
      rw [div_lt_iff₀ (by norm_num)]
      nlinarith
    linarith
  -- the grid of `d` is at least as fine
  have hlog : Int.log 10 |d| ≤ Int.log 10 |t| := by
    have h1 : |d| < ((10 : ℕ) : ℝ) ^ (Int.log 10 |t| + 1) := by
      push_cast
      rw [zpow_add₀ (by norm_num), lastDigit_eq]
      have : |t| / 2 ^ 53 < lastDigit t := by
        rw [div_lt_iff₀ (by norm_num)]
        calc |t| ≤ (10 ^ 15 - 1) * lastDigit t := hmax
          _ < lastDigit t * 2 ^ 53 := by nlinarith
      calc |d| ≤ |t| + |t| / 2 ^ 53 := hdt
        _ < (10 ^ 15 - 1) * lastDigit t + lastDigit t := by linarith
        _ = 10 ^ 14 * lastDigit t * 10 ^ (1 : ℤ) := by norm_num; ring
    have := (Int.lt_zpow_iff_log_lt (b := 10) (by norm_num) (abs_pos.2 hdne)).1 h1
    omega
  obtain ⟨k', hk'⟩ : ∃ k' : ℤ, t = k' * lastDigit d := by
    rw [hk]
    unfold lastDigit
    exact mul_zpow_of_le k (by omega)
  obtain ⟨⟨m, hm⟩, hclose⟩ := hy
  -- the two multiples are less than one apart
  have hfar : |t| / 2 ^ 53 < lastDigit d / 2 := by
    have h1 := lt_lastDigit d
    rw [div_lt_iff₀ (by norm_num)]
    have h2 : |t| - |t| / 2 ^ 53 < 10 ^ 15 * lastDigit d := lt_of_le_of_lt htd h1
    have h3 : |t| / 2 ^ 53 ≤ |t| / 2 := by
      apply div_le_div_of_nonneg_left htpos.le (by norm_num) (by norm_num)
    nlinarith
  have hlt : |(m : ℝ) - k'| * lastDigit d < lastDigit d := by
    have h1 : ((m : ℝ) - k') * lastDigit d = (y - d) + (d - t) := by rw [hm]; conv_rhs => rw [hk']
                                                                     ring
    calc |(m : ℝ) - k'| * lastDigit d = |((m : ℝ) - k') * lastDigit d| := by
          rw [abs_mul, abs_of_pos hLd]
      _ ≤ |y - d| + |d - t| := by rw [h1]; exact abs_add_le _ _
      _ < lastDigit d := by rw [abs_sub_comm] at hclose; linarith
  have hone : |(m : ℝ) - k'| < 1 := by
    by_contra hc
    push Not at hc
    nlinarith
  have hmk : m = k' := by
    have : |m - k'| < 1 := by exact_mod_cast hone
    have := Int.abs_lt_one_iff.1 this
    omega
  rw [hm, hmk, ← hk']

/-- The floating point number next to a number is within one part in 2⁵³ of it. -/
theorem parsed_close {t d : ℝ} (hn : Spec.Normal t) (h : Parsed t d) : |d - t| ≤ |t| / 2 ^ 53 := by
  have htpos : 0 < |t| := lt_of_lt_of_le (by positivity) hn
  -- a floating point number that near exists
  have hex : ∃ d', Double d' ∧ |t - d'| ≤ |t| / 2 ^ 53 := by
    have hlog1 := Int.zpow_log_le_self (b := 2) (by norm_num) htpos
    have hlog2 := Int.lt_zpow_succ_log_self (b := 2) (by norm_num) |t|
    have hq : (-1022 : ℤ) ≤ Int.log 2 |t| :=
      (Int.zpow_le_iff_le_log (b := 2) (by norm_num) htpos).1 (by exact_mod_cast hn)
    push_cast at hlog1 hlog2
    set L := Int.log 2 |t| with hL
    have hu : (2 : ℝ) ^ L = 2 ^ 52 * (2 : ℝ) ^ (L - 52) := by
      rw [show (2 : ℝ) ^ 52 = (2 : ℝ) ^ (52 : ℤ) by norm_num, ← zpow_add₀ (by norm_num)]
      congr 1; ring
    have hupos : (0 : ℝ) < (2 : ℝ) ^ (L - 52) := by positivity
    set u := (2 : ℝ) ^ (L - 52) with hudef
    have hup : (2 : ℝ) ^ (L + 1) = 2 ^ 53 * u := by
      rw [zpow_add₀ (by norm_num), hu]; norm_num; ring
    rw [hup] at hlog2
    rw [hu] at hlog1
    have hr := abs_sub_round (t / u)
    have hdist : |t - round (t / u) * u| ≤ u / 2 := by
      have : t - round (t / u) * u = (t / u - round (t / u)) * u := by
        field_simp
      rw [this, abs_mul, abs_of_pos hupos]
      nlinarith
    refine ⟨round (t / u) * u, ?_, ?_⟩
    · have hle : |round (t / u)| ≤ 2 ^ 53 := by
        have h1 : |(round (t / u) : ℝ) * u| ≤ |t| + u / 2 := by
          calc |(round (t / u) : ℝ) * u| = |t - (t - round (t / u) * u)| := by congr 1; ring
            _ ≤ |t| + |t - round (t / u) * u| := abs_sub _ _
            _ ≤ _ := by linarith
        rw [abs_mul, abs_of_pos hupos] at h1
        have h2 : |(round (t / u) : ℝ)| * u < (2 ^ 53 + 1) * u := by nlinarith
        have h3 : |(round (t / u) : ℝ)| < 2 ^ 53 + 1 := lt_of_mul_lt_mul_right h2 hupos.le
        have h4 : |round (t / u)| < 2 ^ 53 + 1 := by exact_mod_cast h3
        omega
      rcases lt_or_eq_of_le hle with hlt | heq
      · exact ⟨round (t / u), L - 52, rfl, hlt, by omega⟩
      · -- a power of two: one bit less, one exponent more
        have hhalf : ∃ s : ℤ, round (t / u) = s * 2 ∧ |s| < 2 ^ 53 := by
          rcases abs_choice (round (t / u)) with hc | hc
          · exact ⟨2 ^ 52, by rw [← hc, heq]; norm_num, by norm_num⟩
          · refine ⟨-2 ^ 52, ?_, by norm_num⟩
            have : round (t / u) = -2 ^ 53 := by omega
            rw [this]; norm_num
        obtain ⟨s, hs, hs2⟩ := hhalf
        refine ⟨s, L - 52 + 1, ?_, hs2, by omega⟩
        rw [hs, zpow_add₀ (by norm_num), ← hudef]
        push_cast
        ring
    · have : u / 2 ≤ |t| / 2 ^ 53 := by
        rw [le_div_iff₀ (by norm_num)]
        nlinarith
      exact hdist.trans this
  obtain ⟨d', hd', hc⟩ := hex
  rw [abs_sub_comm]
  exact (h.2 d' hd').trans hc

/-- **C77**.  A number that came from a file with at most 15 digits keeps them: it is read as a
floating point number, and that is printed with the same digits again, whatever the number. -/
theorem C77_digits (t d y : ℝ) (hn : Spec.Normal t) (ht : Spec.Decimal15 t) (hd : Parsed t d)
    (hy : Printed d y) : y = t := by
  have hne : t ≠ 0 := by
    rintro rfl
    unfold Spec.Normal at hn
    rw [abs_zero] at hn
    have : (0 : ℝ) < (2 : ℝ) ^ (-1022 : ℤ) := by positivity
    linarith
  exact printed_of_close hne ht (parsed_close hn hd) hy

/-- What is printed has at most 15 digits. -/
theorem printed_decimal {x y : ℝ} (h : Printed x y) (hx : x ≠ 0) : Spec.Decimal15 y := by
  obtain ⟨⟨k, hk⟩, hc⟩ := h
  have hL := lastDigit_pos x
  have hle : |k| ≤ 10 ^ 15 := by
    have h1 := lt_lastDigit x
    have h2 : |(k : ℝ)| * lastDigit x ≤ |x| + lastDigit x / 2 := by
      calc |(k : ℝ)| * lastDigit x = |y| := by rw [hk, abs_mul, abs_of_pos hL]
        _ = |x - (x - y)| := by congr 1; ring
        _ ≤ |x| + |x - y| := abs_sub _ _
        _ ≤ _ := by linarith
    have h3 : |(k : ℝ)| * lastDigit x < (10 ^ 15 + 1) * lastDigit x := by nlinarith
    have h4 : |(k : ℝ)| < 10 ^ 15 + 1 := lt_of_mul_lt_mul_right h3 hL.le
    have h5 : |k| < 10 ^ 15 + 1 := by exact_mod_cast h4
    omega
  rcases lt_or_eq_of_le hle with hlt | heq
  · exact ⟨k, _, hk, hlt⟩
  · have hten : ∃ s : ℤ, k = s * 10 ∧ |s| < 10 ^ 15 := by
      rcases abs_choice k with hc | hc
      · exact ⟨10 ^ 14, by omega, by norm_num⟩
      · refine ⟨-10 ^ 14, by omega, by norm_num⟩
    obtain ⟨s, hs, hs2⟩ := hten
    refine ⟨s, Int.log 10 |x| - ((precision : ℤ) - 1) + 1, ?_, hs2⟩
    rw [hk, hs, zpow_add₀ (by norm_num)]
    unfold lastDigit
    push_cast
    ring

/-- **C77**.  Writing a model a second time, after it was read, gives the same numbers in the
file: nothing drifts however often a model is read and written. -/
theorem C77_stable (x y d y' : ℝ) (hx : x ≠ 0) (h1 : Printed x y) (hn : Spec.Normal y)
    (h2 : Parsed y d) (h3 : Printed d y') : y' = y :=
  C77_digits y d y' hn (printed_decimal h1 hx) h2 h3

/-- **C77**, violated.  A number of the model need not survive in a file: the floating point
numbers 1 and 1 + 2⁻⁵² are different, but the file says 1 for both, and reading it gives 1. -/
theorem C77_exact_violates :
    Double (1 + (2 : ℝ) ^ (-52 : ℤ)) ∧ Printed (1 + (2 : ℝ) ^ (-52 : ℤ)) 1 ∧
    (∀ y, Printed (1 + (2 : ℝ) ^ (-52 : ℤ)) y → y = 1) ∧
    (∀ d, Parsed 1 d → d = 1) ∧ (1 : ℝ) ≠ 1 + (2 : ℝ) ^ (-52 : ℤ) := by
  have hlog : Int.log 10 |(1 : ℝ) + (2 : ℝ) ^ (-52 : ℤ)| = 0 := by
    have hpos : (0 : ℝ) < |(1 : ℝ) + (2 : ℝ) ^ (-52 : ℤ)| := by
      rw [abs_of_pos (by positivity)]; positivity
    have h1 : (0 : ℤ) ≤ Int.log 10 |(1 : ℝ) + (2 : ℝ) ^ (-52 : ℤ)| :=
      (Int.zpow_le_iff_le_log (b := 10) (by norm_num) hpos).1 (by
        rw [abs_of_pos (by positivity)]; norm_num)
    have h2 : Int.log 10 |(1 : ℝ) + (2 : ℝ) ^ (-52 : ℤ)| < 1 :=
      (Int.lt_zpow_iff_log_lt (b := 10) (by norm_num) hpos).1 (by
        rw [abs_of_pos (by positivity)]; norm_num)
    omega
  have hlast : lastDigit (1 + (2 : ℝ) ^ (-52 : ℤ)) = (10 : ℝ) ^ (-14 : ℤ) := by
    unfold lastDigit precision
    rw [hlog]
    norm_num
  have hdec : Spec.Decimal15 1 := ⟨1, 0, by norm_num, by norm_num⟩
  refine ⟨⟨2 ^ 52 + 1, -52, ?_, by norm_num, by norm_num⟩, ⟨⟨10 ^ 14, ?_⟩, ?_⟩, ?_, ?_, ?_⟩
  · norm_num
  · rw [hlast]; norm_num
  · rw [hlast]; norm_num [abs_of_pos]
  · intro y hy
    obtain ⟨⟨m, hm⟩, hc⟩ := hy
    rw [hlast] at hm hc
    subst hm
    have h1 : |(m : ℝ) - 10 ^ 14| < 1 := by
      rw [abs_le] at hc
      rw [abs_lt]
      norm_num at hc ⊢
      constructor <;> linarith [hc.1, hc.2]
    have h2 : |m - 10 ^ 14| < 1 := by exact_mod_cast h1
    have h3 := Int.abs_lt_one_iff.1 h2
    have h4 : m = 10 ^ 14 := by omega
    rw [h4]
    norm_num
  · intro d hd
    have := hd.2 1 ⟨1, 0, by norm_num, by norm_num, by norm_num⟩
    rw [sub_self, abs_zero] at this
    have := abs_nonpos_iff.1 this
    linarith
  · norm_num

/-- The texts of the examples meet the conditions: 1 is the number printed for 1 + 2⁻⁵², and is
read as 1. -/
example : Spec.Normal 1 ∧ Spec.Decimal15 1 ∧ Parsed 1 1 ∧ Printed (1 + (2 : ℝ) ^ (-52 : ℤ)) 1 := by
  refine ⟨?_, ⟨1, 0, by norm_num, by norm_num⟩, ⟨⟨1, 0, by norm_num, by norm_num, by norm_num⟩, ?_⟩,
    C77_exact_violates.2.1⟩
  · unfold Spec.Normal
    rw [abs_one]
    exact zpow_le_one_of_nonpos₀ (by norm_num) (by norm_num)
  · intro d' _
    rw [sub_self, abs_zero]
    exact abs_nonneg _

end Verif.Xml
