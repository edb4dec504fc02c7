import Verif.Convol.Model
import Verif.Convol.Spec
import Verif.Energy.Lemmas
import Mathlib.Algebra.BigOperators.Intervals
import Mathlib.Algebra.BigOperators.Ring.Finset
import Mathlib.Algebra.Field.GeomSum
import Mathlib.Tactic.Linarith
import Mathlib.Tactic.Ring
import Mathlib.Tactic.LinearCombination
import Mathlib.Tactic.FieldSimp
/-
Lemmas for C126: the convolution theorem for the discrete Fourier transform.
-/
set_option linter.unusedSectionVars false
set_option linter.unusedSimpArgs false
set_option linter.unusedVariables false
namespace Verif.Convol
open Vec Finset

/-! ### Sums of roots of unity -/

/-- Root of unity to an integer power. -/
noncomputable def root (n : Nat) (x : ℤ) : ℂ := Complex.exp (2 * Real.pi * Complex.I * (x / n))

theorem root_add (n : Nat) (x y : ℤ) : root n (x + y) = root n x * root n y := by
  unfold root
  rw [← Complex.exp_add]
  congr 1
  push_cast
  ring

theorem root_pow (n k : Nat) (x : ℤ) : root n (k * x) = root n x ^ k := by
  unfold root
  rw [← Complex.exp_nat_mul]
  congr 1
  push_cast
  ring

theorem root_eq_one {n : Nat} (hn : 0 < n) (x : ℤ) : root n x = 1 ↔ (n : ℤ) ∣ x := by
  have hn0 : (n : ℂ) ≠ 0 := by exact_mod_cast hn.ne'
  have hpi : (2 * Real.pi * Complex.I : ℂ) ≠ 0 := Complex.two_pi_I_ne_zero
  unfold root
  rw [Complex.exp_eq_one_iff]
  constructor
  · rintro ⟨m, h⟩
    refine ⟨m, ?_⟩
    have : (2 * Real.pi * Complex.I : ℂ) * (x / n) = (2 * Real.pi * Complex.I) * m := by rw [h]; ring
    have h2 := mul_left_cancel₀ hpi this
    field_simp at h2
    have h3 : (x : ℂ) = ((n * m : ℤ) : ℂ) := by push_cast; rw [h2]
    exact_mod_cast h3
  · rintro ⟨m, h⟩
    refine ⟨m, ?_⟩
    rw [h]
    push_cast
    field_simp

theorem root_sum {n : Nat} (hn : 0 < n) (x : ℤ) : ∑ k ∈ range n, root n (k * x) = if (n : ℤ) ∣ x then (n : ℂ) else 0 := by
  simp only [root_pow]
  split
  · rename_i h
    rw [(root_eq_one hn x).2 h]
    simp
  · rename_i h
    have h1 : root n x ≠ 1 := fun e => h ((root_eq_one hn x).1 e)
    rw [geom_sum_eq h1, ← root_pow, (root_eq_one hn _).2 ⟨x, rfl⟩, sub_self, zero_div]

/-! ### Convolution theorem -/

/-- Product of two transforms, transformed back, in one dimension. -/
theorem conv1 {n : Nat} (hn : 0 < n) (f g : Nat → ℂ) (a : ℤ) :
    ∑ k ∈ range n, ((∑ p ∈ range n, f p * root n (-(p * k))) * ∑ r ∈ range n, g r * root n (-(r * k))) * root n (a * k) =
      n * ∑ p ∈ range n, ∑ r ∈ range n, if (n : ℤ) ∣ a - p - r then f p * g r else 0 := by
  have h1 : ∀ k ∈ range n, ((∑ p ∈ range n, f p * root n (-(p * k))) * ∑ r ∈ range n, g r * root n (-(r * k))) * root n (a * k) =
      ∑ p ∈ range n, ∑ r ∈ range n, f p * g r * root n (k * (a - p - r)) := by
    intro k _
    rw [sum_mul_sum, sum_mul]
    apply sum_congr rfl; intro p _
    rw [sum_mul]
    apply sum_congr rfl; intro r _
    have : root n (k * (a - p - r)) = root n (-(p * k)) * root n (-(r * k)) * root n (a * k) := by
      rw [← root_add, ← root_add]; congr 1; ring
    rw [this]; ring
  rw [sum_congr rfl h1, sum_comm, mul_sum]
  apply sum_congr rfl; intro p _
  rw [sum_comm, mul_sum]
  apply sum_congr rfl; intro r _
  rw [← mul_sum, root_sum hn]
  split
  · ring
  · simp

/-- Product of two transforms, transformed back, in two dimensions. -/
theorem conv2 {n : Nat} (hn : 0 < n) (f g : Nat → Nat → ℂ) (a b : ℤ) :
    ∑ k ∈ range n, ∑ l ∈ range n,
      ((∑ p ∈ range n, ∑ q ∈ range n, f p q * (root n (-(p * k)) * root n (-(q * l)))) *
        ∑ r ∈ range n, ∑ u ∈ range n, g r u * (root n (-(r * k)) * root n (-(u * l)))) * (root n (a * k) * root n (b * l)) =
      (n * n) * ∑ p ∈ range n, ∑ q ∈ range n, ∑ r ∈ range n, ∑ u ∈ range n,
        if (n : ℤ) ∣ a - p - r ∧ (n : ℤ) ∣ b - q - u then f p q * g r u else 0 := by
  have h1 : ∀ k ∈ range n, ∀ l ∈ range n,
      ((∑ p ∈ range n, ∑ q ∈ range n, f p q * (root n (-(p * k)) * root n (-(q * l)))) *
        ∑ r ∈ range n, ∑ u ∈ range n, g r u * (root n (-(r * k)) * root n (-(u * l)))) * (root n (a * k) * root n (b * l)) =
      ∑ p ∈ range n, ∑ q ∈ range n, ∑ r ∈ range n, ∑ u ∈ range n,
        f p q * g r u * (root n (k * (a - p - r)) * root n (l * (b - q - u))) := by
    intro k _ l _
    rw [sum_mul, sum_mul]
    apply sum_congr rfl; intro p _
    rw [sum_mul, sum_mul]
    apply sum_congr rfl; intro q _
    rw [mul_sum, sum_mul]
    apply sum_congr rfl; intro r _
    rw [mul_sum, sum_mul]
    apply sum_congr rfl; intro u _
    have e1 : root n (k * (a - p - r)) = root n (-(p * k)) * root n (-(r * k)) * root n (a * k) := by
      rw [← root_add, ← root_add]; congr 1; ring
    have e2 : root n (l * (b - q - u)) = root n (-(q * l)) * root n (-(u * l)) * root n (b * l) := by
      rw [← root_add, ← root_add]; congr 1; ring
    rw [e1, e2]; ring
  rw [sum_congr rfl (fun k hk => sum_congr rfl (h1 k hk))]
  have sw : ∀ F : Nat → Nat → Nat → ℂ, ∑ k ∈ range n, ∑ l ∈ range n, ∑ p ∈ range n, F k l p =
      ∑ p ∈ range n, ∑ k ∈ range n, ∑ l ∈ range n, F k l p := by
    intro F
    rw [sum_congr rfl (fun k _ => sum_comm), sum_comm]
  rw [sw, mul_sum]
  apply sum_congr rfl; intro p _
  rw [sw, mul_sum]
  apply sum_congr rfl; intro q _
  rw [sw, mul_sum]
  apply sum_congr rfl; intro r _
  rw [sw, mul_sum]
  apply sum_congr rfl; intro u _
  have h2 : ∑ k ∈ range n, ∑ l ∈ range n, f p q * g r u * (root n (k * (a - p - r)) * root n (l * (b - q - u))) =
      f p q * g r u * ((∑ k ∈ range n, root n (k * (a - p - r))) * ∑ l ∈ range n, root n (l * (b - q - u))) := by
    rw [sum_mul_sum, mul_sum]
    apply sum_congr rfl; intro k _
    rw [mul_sum]
  rw [h2, root_sum hn, root_sum hn]
  by_cases c1 : (n : ℤ) ∣ a - p - r <;> by_cases c2 : (n : ℤ) ∣ b - q - u
  · simp only [c1, c2, if_true, and_self]; ring
  · simp only [c1, c2, if_false, if_true, and_false]; ring
  · simp only [c1, c2, if_false, if_true, false_and]; ring
  · simp only [c1, c2, if_false, and_false]; ring

/-! ### Transforms of arrays -/

theorem sum_range_mul (m n : Nat) (h : Nat → ℂ) :
    ∑ k ∈ range (m * n), h k = ∑ i ∈ range m, ∑ j ∈ range n, h (i * n + j) := by
  induction m with
  | zero => simp
  | succ m ih => rw [Nat.succ_mul, sum_range_add, sum_range_succ, ih]

theorem dft2_val {sign : ℤ} {n : Nat} {a : List ℂ} {k l : Nat} (hk : k < n) (hl : l < n) :
    val (dft2 sign n n a) (k * n + l) =
      ∑ p ∈ range n, ∑ q ∈ range n, val a (p * n + q) * (root n (sign * (p * k)) * root n (sign * (q * l))) := by
  unfold dft2
  rw [val_map_range _ (idx_lt hl hk), sum_range_mul]
  apply sum_congr rfl; intro p hp
  apply sum_congr rfl; intro q hq
  have hq' := mem_range.1 hq
  have d : ∀ x y : Nat, y < n → (x * n + y) / n = x ∧ (x * n + y) % n = y := by
    intro x y hy
    constructor
    · rw [Nat.mul_comm, Nat.mul_add_div (by omega), Nat.div_eq_of_lt hy, Nat.add_zero]
    · rw [Nat.mul_comm, Nat.mul_add_mod, Nat.mod_eq_of_lt hy]
  rw [(d p q hq').1, (d p q hq').2, (d k l hl).1, (d k l hl).2]
  congr 1
  unfold root
  rw [← Complex.exp_add]
  congr 1
  push_cast
  ring

theorem dft1_val {sign : ℤ} {n : Nat} {a : List ℂ} {k : Nat} (hk : k < n) :
    val (dft1 sign n a) k = ∑ p ∈ range n, val a p * root n (sign * (p * k)) := by
  unfold dft1
  rw [val_map_range _ hk]
  apply sum_congr rfl; intro p hp
  congr 1
  unfold root
  congr 1
  push_cast
  ring

theorem dft2_length (s : ℤ) (n0 n1 : Nat) (a : List ℂ) : (dft2 s n0 n1 a).length = n0 * n1 := by simp [dft2]

theorem dft1_length (s : ℤ) (n : Nat) (a : List ℂ) : (dft1 s n a).length = n := by simp [dft1]

theorem val_zipWith {a b : List ℂ} {k : Nat} (ha : k < a.length) (hb : k < b.length) :
    val (List.zipWith (· * ·) a b) k = val a k * val b k := by
  rw [val_lt (by simp; omega), val_lt ha, val_lt hb, List.getElem_zipWith]

/-- The product of the transforms of two arrays, transformed back. -/
theorem back2 {n : Nat} (hn : 0 < n) (a b : List ℂ) {i j : Nat} (hi : i < n) (hj : j < n) :
    val (dft2 1 n n (List.zipWith (· * ·) (dft2 (-1) n n a) (dft2 (-1) n n b))) (i * n + j) =
      (n * n) * ∑ p ∈ range n, ∑ q ∈ range n, ∑ r ∈ range n, ∑ u ∈ range n,
        if (n : ℤ) ∣ i - p - r ∧ (n : ℤ) ∣ j - q - u then val a (p * n + q) * val b (r * n + u) else 0 := by
  rw [dft2_val hi hj, ← conv2 hn (fun p q => val a (p * n + q)) (fun p q => val b (p * n + q))]
  apply sum_congr rfl; intro k hk
  apply sum_congr rfl; intro l hl
  have hk' := mem_range.1 hk
  have hl' := mem_range.1 hl
  rw [val_zipWith (by rw [dft2_length]; exact idx_lt hl' hk') (by rw [dft2_length]; exact idx_lt hl' hk'),
    dft2_val hk' hl', dft2_val hk' hl']
  simp only [neg_mul, one_mul, mul_comm (k : ℤ), mul_comm (l : ℤ)]

theorem back1 {n : Nat} (hn : 0 < n) (a b : List ℂ) {i : Nat} (hi : i < n) :
    val (dft1 1 n (List.zipWith (· * ·) (dft1 (-1) n a) (dft1 (-1) n b))) i =
      n * ∑ p ∈ range n, ∑ r ∈ range n, if (n : ℤ) ∣ i - p - r then val a p * val b r else 0 := by
  rw [dft1_val hi, ← conv1 hn (fun p => val a p) (fun p => val b p)]
  apply sum_congr rfl; intro k hk
  have hk' := mem_range.1 hk
  rw [val_zipWith (by rw [dft1_length]; exact hk') (by rw [dft1_length]; exact hk'), dft1_val hk', dft1_val hk']
  simp only [neg_mul, one_mul, mul_comm (k : ℤ)]

/-! ### Padded arrays -/

theorem fillRow_length (base size : Nat) : ∀ (r : List ℝ) (i : Nat) (a : List ℂ), (fillRow base size r i a).length = a.length
  | [], _, _ => rfl
  | x :: xs, i, a => by
    rw [fillRow, fillRow_length base size xs]
    split
    · rw [List.length_set]
    · rfl

theorem fillRow_val (base size : Nat) : ∀ (r : List ℝ) (i : Nat) (a : List ℂ) (m : Nat), a.length = size → m < size →
    val (fillRow base size r i a) m = if base + i ≤ m ∧ m < base + i + r.length then ((val r (m - (base + i)) : ℝ) : ℂ) else val a m
  | [], i, a, m, _, _ => by rw [fillRow, if_neg (by simp)]
  | x :: xs, i, a, m, ha, hm => by
    rw [fillRow, fillRow_val base size xs (i + 1) _ m (by split <;> simp [ha]) hm]
    by_cases h1 : base + (i + 1) ≤ m ∧ m < base + (i + 1) + xs.length
    · rw [if_pos h1, if_pos (by simp only [List.length_cons]; omega)]
      obtain ⟨d, hd⟩ : ∃ d, m - (base + i) = d + 1 := ⟨m - (base + i) - 1, by omega⟩
      rw [hd, val_cons_succ, show m - (base + (i + 1)) = d by omega]
    · rw [if_neg h1]
      by_cases h2 : m = base + i
      · subst h2
        rw [if_pos (show base + i ≤ base + i ∧ base + i < base + i + (x :: xs).length by simp only [List.length_cons]; omega),
          if_pos hm, val_set (by omega), if_pos rfl, Nat.sub_self, val_cons_zero]
      · rw [if_neg (show ¬(base + i ≤ m ∧ m < base + i + (x :: xs).length) by simp only [List.length_cons]; omega)]
        by_cases h3 : base + i < size
        · rw [if_pos h3, val_set (by omega), if_neg (fun h => h2 h)]
        · rw [if_neg h3]

theorem pix_cons_succ (r : List ℝ) (rs : Image) (j i : Nat) : pix (r :: rs) (j + 1) i = pix rs j i := rfl

theorem pix_cons_zero (r : List ℝ) (rs : Image) (i : Nat) : pix (r :: rs) 0 i = val r i := rfl

theorem fillRows_val {nx dx dy size w : Nat} (hw : dx + w ≤ nx) : ∀ (rs : Image) (j : Nat) (a : List ℂ) (R C : Nat), a.length = size →
    (∀ r ∈ rs, r.length = w) → R * nx + C < size → C < nx →
    val (fillRows nx dx dy size rs j a) (R * nx + C) =
      if (j + dy ≤ R ∧ R < j + dy + rs.length) ∧ dx ≤ C ∧ C < dx + w then ((pix rs (R - (j + dy)) (C - dx) : ℝ) : ℂ)
      else val a (R * nx + C)
  | [], j, a, R, C, _, _, _, _ => by
    rw [fillRows, if_neg (by simp only [List.length_nil]; omega)]
  | r :: rs, j, a, R, C, ha, hr, hm, hC => by
    rw [fillRows, fillRows_val hw rs (j + 1) _ R C (by rw [fillRow_length, ha]) (fun s hs => hr s (List.mem_cons_of_mem _ hs)) hm hC]
    have hrw := hr r (List.mem_cons_self)
    by_cases h1 : (j + 1 + dy ≤ R ∧ R < j + 1 + dy + rs.length) ∧ dx ≤ C ∧ C < dx + w
    · rw [if_pos h1, if_pos (by simp only [List.length_cons]; omega)]
      obtain ⟨d, hd⟩ : ∃ d, R - (j + dy) = d + 1 := ⟨R - (j + dy) - 1, by omega⟩
      rw [hd, pix_cons_succ, show R - (j + 1 + dy) = d by omega]
    · rw [if_neg h1, fillRow_val _ _ _ _ _ _ ha hm, hrw]
      by_cases h2 : R = j + dy
      · subst h2
        by_cases h3 : dx ≤ C ∧ C < dx + w
        · rw [if_pos (by omega), if_pos (by simp only [List.length_cons]; omega), Nat.sub_self, pix_cons_zero,
            show (j + dy) * nx + C - ((j + dy) * nx + dx + 0) = C - dx by omega]
        · rw [if_neg (by omega), if_neg (by simp only [List.length_cons]; omega)]
      · rw [if_neg (show ¬((j + dy ≤ R ∧ R < j + dy + (r :: rs).length) ∧ dx ≤ C ∧ C < dx + w) by
          simp only [List.length_cons]; omega)]
        rw [if_neg]
        rintro ⟨h3, h4⟩
        have h5 : R * nx + C < (j + dy + 1) * nx := by rw [Nat.succ_mul]; omega
        have h6 : (j + dy) * nx ≤ R * nx + C := by omega
        have h7 : R < j + dy + 1 := by
          by_contra hc
          have := Nat.mul_le_mul_right nx (not_lt.1 hc)
          omega
        have h8 : j + dy ≤ R := by
          by_contra hc
          have : (R + 1) * nx ≤ (j + dy) * nx := Nat.mul_le_mul_right nx (by omega)
          rw [Nat.succ_mul] at this
          omega
        omega

theorem fillRows_length (nx dx dy size : Nat) : ∀ (rs : Image) (j : Nat) (a : List ℂ), (fillRows nx dx dy size rs j a).length = a.length
  | [], _, _ => rfl
  | r :: rs, j, a => by rw [fillRows, fillRows_length nx dx dy size rs, fillRow_length]

/-- The padded array of an image that fits. -/
theorem complexArray_ok {m : Image} {n ny nx : Nat} (h : Rect m ny nx) (hy : 0 < ny) (h1 : ny ≤ n) (h2 : nx ≤ n) :
    ∃ a, complexArray m n n = .ok a ∧ ∀ R < n, ∀ C < n, val a (R * n + C) =
      if ((n - ny) / 2 ≤ R ∧ R < (n - ny) / 2 + ny) ∧ (n - nx) / 2 ≤ C ∧ C < (n - nx) / 2 + nx then
        ((pix m (R - (n - ny) / 2) (C - (n - nx) / 2) : ℝ) : ℂ) else 0 := by
  obtain ⟨hl, hr⟩ := h
  cases m with
  | nil => simp at hl; omega
  | cons r rs =>
    have hrn : r.length = nx := hr r List.mem_cons_self
    unfold complexArray
    have hv : vat (r :: rs) 0 = .ok r := rfl
    rw [hv, Res.bind_ok]
    have p1 : place n (r :: rs).length = (n, (n - ny) / 2) := by
      unfold place; rw [hl, if_neg (by omega)]
    have p2 : place n r.length = (n, (n - nx) / 2) := by
      unfold place; rw [hrn, if_neg (by omega)]
    simp only [p1, p2]
    refine ⟨_, rfl, ?_⟩
    intro R hR C hC
    rw [fillRows_val (w := nx) (by omega) (r :: rs) 0 _ R C (by simp) hr (idx_lt hC hR) hC, hl, val_replicate_zero]
    simp only [Nat.zero_add]

/-! ### Results -/

theorem rolled_length {n : Nat} (hn : 2 ≤ n) : (rolled n).length = n := by
  unfold rolled
  rw [List.length_append, List.length_range', List.length_range]
  omega

theorem rolled_get {n r : Nat} (hn : 2 ≤ n) (hr : r < n) : (rolled n)[r]? = some ((r + (n / 2 - 1)) % n) := by
  unfold rolled
  by_cases h : r < n - (n / 2 - 1)
  · rw [List.getElem?_append_left (by simpa using h), List.getElem?_range' h, Nat.mod_eq_of_lt (by omega)]
    simp
    omega
  · rw [List.getElem?_append_right (by simpa using h), List.length_range', List.getElem?_range (by omega)]
    congr 1
    rw [Nat.mod_eq_sub_mod (by omega), Nat.mod_eq_of_lt (by omega)]
    omega

theorem vat_some {α : Type} {l : List α} {i : Nat} {x : α} (h : l[i]? = some x) : vat l i = .ok x := by
  unfold vat; rw [h]

/-- The part of a square result that belongs to the image. -/
theorem subArray_ok {F : Nat → Nat → ℝ} {out s : Image} {n ny nx : Nat} (hs : Rect s ny nx) (hy : 0 < ny) (h1 : ny ≤ n) (h2 : nx ≤ n)
    (ho : out = (rolled n).map fun i => (rolled n).map fun j => F i j) (hn : 2 ≤ n) :
    subArray out s = .ok ((List.range ny).map fun i => (List.range nx).map fun j =>
      F ((i + (n - ny) / 2 + (n / 2 - 1)) % n) ((j + (n - nx) / 2 + (n / 2 - 1)) % n)) := by
  obtain ⟨hl, hr⟩ := hs
  have hol : out.length = n := by rw [ho, List.length_map, rolled_length hn]
  have hget : ∀ i < n, out[i]? = some ((rolled n).map fun j => F ((i + (n / 2 - 1)) % n) j) := by
    intro i hi
    rw [ho, List.getElem?_map, rolled_get hn hi]
    rfl
  have hs0 : ∃ r, s[0]? = some r ∧ r.length = nx := by
    have : 0 < s.length := by omega
    exact ⟨s[0], List.getElem?_eq_getElem this, hr _ (List.getElem_mem _)⟩
  obtain ⟨r0, hr0, hr0'⟩ := hs0
  unfold subArray
  rw [vat_some (hget 0 (by omega)), Res.bind_ok, vat_some hr0, Res.bind_ok, hl, hol, List.length_map, rolled_length hn, hr0']
  apply mapM_ok
  intro i hi
  have hi' := List.mem_range.1 hi
  have hsi : s[i]? = some (s[i]'(by omega)) := List.getElem?_eq_getElem _
  rw [vat_some hsi, Res.bind_ok, hr _ (List.getElem_mem _)]
  apply mapM_ok
  intro j hj
  have hj' := List.mem_range.1 hj
  rw [vat_some (hget (i + (n - ny) / 2) (by omega)), Res.bind_ok]
  apply vat_some
  rw [List.getElem?_map, rolled_get hn (by omega)]
  rfl

/-- Sum over a part of a range. -/
theorem sum_part {N d n : Nat} (h : d + n ≤ N) (f : Nat → ℝ) :
    ∑ p ∈ range N, (if d ≤ p ∧ p < d + n then f (p - d) else 0) = ∑ p ∈ range n, f p := by
  have e : N = d + (n + (N - d - n)) := by omega
  rw [e, sum_range_add, sum_range_add]
  rw [sum_eq_zero (s := range d) (fun p hp => if_neg (by have := mem_range.1 hp; omega)),
    sum_eq_zero (s := range (N - d - n)) (fun p hp => if_neg (by omega)), zero_add, add_zero]
  apply sum_congr rfl
  intro p hp
  have := mem_range.1 hp
  rw [if_pos (by omega), Nat.add_sub_cancel_left]

theorem emod_sub (n X P R : ℤ) : n ∣ X % n - P - R ↔ n ∣ X - P - R := by
  rw [Int.emod_def]
  constructor
  · rintro ⟨c, h⟩; exact ⟨c + X / n, by linear_combination h⟩
  · rintro ⟨c, h⟩; exact ⟨c - X / n, by linear_combination h⟩

/-- Which pixels meet: no pixel wraps around. -/
theorem meet {M ny py i p r : Nat} (h1 : ny ≤ M) (h2 : py ≤ M) (hi : i < ny) (hp : p < ny) (hr : r < py) :
    (((2 * M : Nat) : ℤ) ∣ (((i + (2 * M - ny) / 2 + (2 * M / 2 - 1)) % (2 * M) : Nat) : ℤ) - ((p + (2 * M - ny) / 2 : Nat) : ℤ) -
      ((r + (2 * M - py) / 2 : Nat) : ℤ)) ↔ p + r = i + Spec.mid py := by
  unfold Spec.mid
  have e1 : ((2 * M : Nat) : ℤ) ∣ (((i + (2 * M - ny) / 2 + (2 * M / 2 - 1)) % (2 * M) : Nat) : ℤ) - (p + (2 * M - ny) / 2 : Nat) -
      (r + (2 * M - py) / 2 : Nat) ↔ ((2 * M : Nat) : ℤ) ∣ ((i : ℤ) + ((py - 1) / 2 : Nat) - p - r) := by
    rw [Int.natCast_mod]
    have e2 : ((i + (2 * M - ny) / 2 + (2 * M / 2 - 1) : Nat) : ℤ) - (p + (2 * M - ny) / 2 : Nat) -
        (r + (2 * M - py) / 2 : Nat) = (i : ℤ) + ((py - 1) / 2 : Nat) - p - r := by omega
    rw [← e2, emod_sub]
  rw [e1]
  constructor
  · rintro ⟨c, hc⟩
    have hM : 0 < M := by omega
    have h3 : c = 0 := by
      by_contra hne
      rcases lt_or_gt_of_ne hne with h | h
      · have : c ≤ -1 := by omega
        have : ((2 * M : Nat) : ℤ) * c ≤ ((2 * M : Nat) : ℤ) * (-1) := mul_le_mul_of_nonneg_left this (by positivity)
        omega
      · have : 1 ≤ c := by omega
        have : ((2 * M : Nat) : ℤ) * 1 ≤ ((2 * M : Nat) : ℤ) * c := mul_le_mul_of_nonneg_left this (by positivity)
        omega
    rw [h3] at hc
    omega
  · intro h
    have : (i : ℤ) + ((py - 1) / 2 : Nat) - p - r = 0 := by omega
    rw [this]
    exact dvd_zero _

end Verif.Convol
