import Verif.PsfInt.Lemmas
import Mathlib.Tactic.NormNum
import Mathlib.Analysis.Real.Pi.Bounds
set_option linter.unusedSectionVars false
set_option linter.unusedSimpArgs false
set_option linter.unusedVariables false
/-
C89: the estimate of the point-spread function in a pixel.
-/
namespace Verif.PsfInt
open Verif Verif.Vec Real Spec

/-! ### Interpolation -/

/-- C89.  Inside the grid the interpolation is linear in both directions between the corners of the
cell that contains the position: it stays between bounds of the table and gives the table's values at
its positions. -/
theorem C89_interpolation (z : List (List ℝ)) (n2 n1 : Nat) (Z : Nat → Nat → ℝ) (h : IsTable z n2 n1 Z) (h2 : 2 ≤ n2)
    (h1 : 2 ≤ n1) (x y : ℝ) (hx : 0 ≤ x) (hx1 : x ≤ n2 - 1) (hy : 0 ≤ y) (hy1 : y ≤ n1 - 1) :
    ∃ v i j, bilinear x y z = .ok v ∧ i + 1 < n2 ∧ j + 1 < n1 ∧ (i : ℝ) ≤ x ∧ x ≤ i + 1 ∧ (j : ℝ) ≤ y ∧ y ≤ j + 1 ∧
      v = lerp2 (x - i) (y - j) (Z i j) (Z i (j + 1)) (Z (i + 1) j) (Z (i + 1) (j + 1)) ∧
      (∀ lo hi, (∀ a b, a < n2 → b < n1 → lo ≤ Z a b ∧ Z a b ≤ hi) → lo ≤ v ∧ v ≤ hi) ∧
      (∀ a b : Nat, x = a → y = b → v = Z a b) := by
  obtain ⟨ix1, ix2⟩ := index_in h2 hx hx1
  obtain ⟨iy1, iy2⟩ := index_in h1 hy hy1
  have hx' := index_lt (val := x) h2
  have hy' := index_lt (val := y) h1
  refine ⟨_, index x n2, index y n1, bilinear_ok h h2 h1 x y, hx', hy', ix1, ix2, iy1, iy2, rfl, ?_, ?_⟩
  · intro lo hi hb
    exact lerp2_between (by linarith) (by linarith) (by linarith) (by linarith) (hb _ _ (by omega) (by omega))
      (hb _ _ (by omega) (by omega)) (hb _ _ (by omega) (by omega)) (hb _ _ (by omega) (by omega))
  · intro a b ha hb
    have ca : a = index x n2 ∨ a = index x n2 + 1 := by
      rw [ha] at ix1 ix2 ⊢
      have e1 : index (a : ℝ) n2 ≤ a := by exact_mod_cast ix1
      have e2 : a ≤ index (a : ℝ) n2 + 1 := by exact_mod_cast ix2
      omega
    have cb : b = index y n1 ∨ b = index y n1 + 1 := by
      rw [hb] at iy1 iy2 ⊢
      have e1 : index (b : ℝ) n1 ≤ b := by exact_mod_cast iy1
      have e2 : b ≤ index (b : ℝ) n1 + 1 := by exact_mod_cast iy2
      omega
    generalize index x n2 = i at *
    generalize index y n1 = j at *
    unfold lerp2
    rcases ca with rfl | rfl <;> rcases cb with rfl | rfl <;> rw [ha, hb] <;> push_cast <;> ring

/-- The hypotheses can be met. -/
example : ∃ z Z, IsTable z 3 2 Z ∧ (0 : ℝ) ≤ 3 / 2 ∧ (3 / 2 : ℝ) ≤ (3 : Nat) - 1 :=
  ⟨_, _, replicate_table 3 2, by norm_num, by norm_num⟩

/-- C89.  A table of a function that is linear in both directions is reproduced everywhere, also
beyond the borders. -/
theorem C89_bilinear_exact (z : List (List ℝ)) (n2 n1 : Nat) (a b c d : ℝ)
    (h : IsTable z n2 n1 (fun i j => a + b * i + c * j + d * i * j)) (h2 : 2 ≤ n2) (h1 : 2 ≤ n1) (x y : ℝ) :
    bilinear x y z = .ok (a + b * x + c * y + d * x * y) := by
  rw [bilinear_ok h h2 h1]
  congr 1
  unfold lerp2
  push_cast
  ring

/-- The hypotheses can be met. -/
example : IsTable [[0, 1], [1, 2]] 2 2 (fun i j => 0 + 1 * (i : ℝ) + 1 * j + 0 * i * j) := by
  refine ⟨rfl, fun i hi => ?_⟩
  rcases (by omega : i = 0 ∨ i = 1) with rfl | rfl
  · refine ⟨[0, 1], rfl, rfl, fun j hj => ?_⟩
    rcases (by omega : j = 0 ∨ j = 1) with rfl | rfl <;> simp
  · refine ⟨[1, 2], rfl, rfl, fun j hj => ?_⟩
    rcases (by omega : j = 0 ∨ j = 1) with rfl | rfl <;> simp
    norm_num

/-- C89 is violated for maps with a single row or a single column: the next one is read out of
bounds. -/
theorem C89_single_row_violates (z : List (List ℝ)) (n2 n1 : Nat) (Z : Nat → Nat → ℝ) (h : IsTable z n2 n1 Z)
    (hn : (n2 = 1 ∧ 1 ≤ n1) ∨ (n1 = 1 ∧ 1 ≤ n2)) (x y : ℝ) : bilinear x y z = .ub := by
  obtain ⟨row, g1, g2, g3⟩ := h.2 0 (by omega)
  have hcell : ∀ i j, n2 ≤ i ∨ n1 ≤ j → cell z i j = .ub := by
    intro i j hij
    unfold cell
    by_cases hi : i < n2
    · obtain ⟨row', e1, e2, e3⟩ := h.2 i hi
      have : vget z i = .ok row' := by unfold vget; rw [e1]
      rw [this, Res.bind_ok, vget_ge _ _ (by omega)]
    · rw [vget_ge _ _ (by rw [h.1]; omega)]
      rfl
  have hok : ∀ i j, (∃ v, cell z i j = .ok v) ∨ cell z i j = .ub := by
    intro i j
    by_cases hij : i < n2 ∧ j < n1
    · exact Or.inl ⟨_, cell_ok h hij.1 hij.2⟩
    · exact Or.inr (hcell i j (by omega))
  unfold bilinear
  have hv : vget z 0 = .ok row := by unfold vget; rw [g1]
  rw [hv, Res.bind_ok]
  simp only
  generalize index x z.length = i
  generalize index y row.length = j
  rcases hok i j with ⟨v1, e1⟩ | e1
  · rw [e1, Res.bind_ok]
    rcases hok i (j + 1) with ⟨v2, e2⟩ | e2
    · rw [e2, Res.bind_ok]
      rcases hn with ⟨rfl, _⟩ | ⟨rfl, _⟩
      · rw [hcell (i + 1) j (Or.inl (by omega))]
        rfl
      · rw [hcell i (j + 1) (Or.inr (by omega))] at e2
        simp at e2
    · rw [e2]; rfl
  · rw [e1]; rfl

/-- The hypotheses can be met. -/
example : ∃ z Z, IsTable z 1 5 Z := ⟨_, _, replicate_table 1 5⟩

/-! ### The scaled distances -/

/-- C89.  At the centre of every pixel (more than a millionth of a degree from the source in the
projection) the scaled distance is the true separation: the estimate from the centre is the
point-spread function at the separation of the pixel. -/
theorem C89_centre (n1 n2 : Nat) (h1 : 2 ≤ n1) (h2 : 2 ≤ n2) (size : ℝ) (src : ℝ × ℝ) (angSep : Nat → ℝ) (psf : ℝ → ℝ) :
    ∃ z, offsetMap n1 n2 size src angSep = .ok z ∧ ∀ i j, i < n2 → j < n1 →
      1 / 1000000 < size * √((src.1 - (j + 1)) ^ 2 + (src.2 - (i + 1)) ^ 2) →
      fast psf size src (j + 1, i + 1) z 1 = .ok (psf (angSep (i * n1 + j))) := by
  obtain ⟨z, g1, g2⟩ := offsetMap_ok n1 n2 size src angSep
  refine ⟨z, g1, fun i j hi hj hs => ?_⟩
  have hc : ∀ c : ℝ, centre c 1 0 = c := fun c => by unfold centre; norm_num
  have hb : bilinear (i : ℝ) j z = .ok (offsetOf size src i j (angSep (i * n1 + j))) := by
    have hi' : (i : ℝ) ≤ n2 - 1 := by
      have : (i : ℝ) + 1 ≤ n2 := by exact_mod_cast hi
      linarith
    have hj' : (j : ℝ) ≤ n1 - 1 := by
      have : (j : ℝ) + 1 ≤ n1 := by exact_mod_cast hj
      linarith
    obtain ⟨v, a, b, e1, -, -, -, -, -, -, -, -, e2⟩ := C89_interpolation z n2 n1 _ g2 h2 h1 i j (by positivity) hi' (by positivity) hj'
    rw [e1, e2 i j rfl rfl]
  rw [fast_ok (by norm_num) (S := fun x y => offsetOf size src i j (angSep (i * n1 + j)))]
  · unfold mean2
    simp only [Finset.sum_range_one, hc]
    have hp : planeDist size src (j + 1) (i + 1) * (1 + offsetOf size src i j (angSep (i * n1 + j))) = angSep (i * n1 + j) := by
      unfold offsetOf
      simp only
      have hs' : 1 / 1000000 < planeDist size src (j + 1) (i + 1) := hs
      rw [if_pos hs']
      have : planeDist size src (j + 1) (i + 1) ≠ 0 := fun h => by rw [h] at hs'; norm_num at hs'
      field_simp
      ring
    rw [hp]
    norm_num
  · intro i' j' hi'' hj''
    obtain rfl : i' = 0 := by omega
    obtain rfl : j' = 0 := by omega
    simp only [hc]
    rw [show (i : ℝ) + 1 - 1 = i by ring, show (j : ℝ) + 1 - 1 = j by ring, hb]

/-- The hypotheses can be met. -/
example : (1 : ℝ) / 1000000 < 1 * √(((0 : ℝ) - ((0 : Nat) + 1)) ^ 2 + ((1 : ℝ) - ((0 : Nat) + 1)) ^ 2) := by
  norm_num

/-- C89.  Where the projection magnifies by the same factor in all directions, and the source is not
at the centre of a pixel, all distances are right. -/
theorem C89_scaled (n1 n2 : Nat) (h1 : 2 ≤ n1) (h2 : 2 ≤ n2) (size c : ℝ) (src : ℝ × ℝ)
    (hfar : ∀ i j : Nat, 1 / 1000000 < size * √((src.1 - (j + 1)) ^ 2 + (src.2 - (i + 1)) ^ 2)) :
    ∃ z, offsetMap n1 n2 size src (fun k => c * (size * √((src.1 - ((k % n1 : Nat) + 1)) ^ 2 + (src.2 - ((k / n1 : Nat) + 1)) ^ 2))) = .ok z ∧
      ∀ psf pix n, 0 < n → fast psf size src pix z n = .ok (mean2 n (fun i j =>
        psf (c * (size * √((src.1 - centre pix.1 n i) ^ 2 + (src.2 - centre pix.2 n j) ^ 2))))) := by
  obtain ⟨z, g1, g2⟩ := offsetMap_ok n1 n2 size src
    (fun k => c * (size * √((src.1 - ((k % n1 : Nat) + 1)) ^ 2 + (src.2 - ((k / n1 : Nat) + 1)) ^ 2)))
  refine ⟨z, g1, fun psf pix n hn => ?_⟩
  have ht : IsTable z n2 n1 (fun _ _ => c - 1) := g2.congr fun i j hi hj => by
    have e1 : (i * n1 + j) % n1 = j := by rw [Nat.mul_comm, Nat.mul_add_mod]; exact Nat.mod_eq_of_lt hj
    have e2 : (i * n1 + j) / n1 = i := by
      rw [Nat.mul_comm, Nat.mul_add_div (by omega), Nat.div_eq_of_lt hj, Nat.add_zero]
    unfold offsetOf planeDist
    simp only [e1, e2]
    rw [if_pos (hfar i j)]
    have : size * √((src.1 - (j + 1)) ^ 2 + (src.2 - (i + 1)) ^ 2) ≠ 0 := fun h => by
      have := hfar i j
      rw [h] at this
      norm_num at this
    rw [mul_div_assoc, div_self this, mul_one]
  rw [fast_ok hn (S := fun _ _ => c - 1) (fun i j _ _ => by rw [bilinear_ok ht h2 h1, lerp2_const])]
  congr 1
  unfold mean2 planeDist
  congr 1
  refine Finset.sum_congr rfl fun i _ => Finset.sum_congr rfl fun j _ => ?_
  congr 1
  ring

/-- The hypotheses can be met: a source half way between the centres. -/
example : ∀ i j : Nat, (1 : ℝ) / 1000000 < 1 * √(((1 / 2 : ℝ) - (j + 1)) ^ 2 + ((1 / 2 : ℝ) - (i + 1)) ^ 2) := by
  intro i j
  rw [one_mul, Real.lt_sqrt (by norm_num)]
  have hi : (0 : ℝ) ≤ i := Nat.cast_nonneg _
  have hj : (0 : ℝ) ≤ j := Nat.cast_nonneg _
  nlinarith

/-- C89 is violated for a source at the centre of a pixel: in the same situation the factor in the
pixels around the source is interpolated from one at the centre, so that the distances differ from the
true ones by a factor that depends on the position. -/
theorem C89_source_at_centre_violates (n1 n2 i0 j0 : Nat) (hi : i0 + 1 < n2) (hj : j0 + 1 < n1) (size c : ℝ) (hsize : 1 / 1000000 < size)
    (u v : ℝ) (hu : 0 ≤ u) (hu1 : u < 1) (hv : 0 ≤ v) (hv1 : v < 1) :
    ∃ z, offsetMap n1 n2 size (j0 + 1, i0 + 1) (fun k =>
        c * (size * √(((j0 + 1 : ℝ) - ((k % n1 : Nat) + 1)) ^ 2 + ((i0 + 1 : ℝ) - ((k / n1 : Nat) + 1)) ^ 2))) = .ok z ∧
      bilinear (i0 + v) (j0 + u) z = .ok ((c - 1) * (1 - (1 - u) * (1 - v))) := by
  obtain ⟨z, g1, g2⟩ := offsetMap_ok n1 n2 size (j0 + 1, i0 + 1) (fun k =>
        c * (size * √(((j0 + 1 : ℝ) - ((k % n1 : Nat) + 1)) ^ 2 + ((i0 + 1 : ℝ) - ((k / n1 : Nat) + 1)) ^ 2)))
  refine ⟨z, g1, ?_⟩
  have ht : IsTable z n2 n1 (fun i j => if i = i0 ∧ j = j0 then 0 else c - 1) := g2.congr fun i j hi' hj' => by
    have e1 : (i * n1 + j) % n1 = j := by rw [Nat.mul_comm, Nat.mul_add_mod]; exact Nat.mod_eq_of_lt hj'
    have e2 : (i * n1 + j) / n1 = i := by
      rw [Nat.mul_comm, Nat.mul_add_div (by omega), Nat.div_eq_of_lt hj', Nat.add_zero]
    unfold offsetOf planeDist
    simp only [e1, e2]
    by_cases hc : i = i0 ∧ j = j0
    · obtain ⟨rfl, rfl⟩ := hc
      rw [if_neg, if_pos ⟨rfl, rfl⟩]
      norm_num
    · rw [if_neg hc]
      have hone : 1 ≤ √(((j0 + 1 : ℝ) - (j + 1)) ^ 2 + ((i0 + 1 : ℝ) - (i + 1)) ^ 2) := by
        rw [Real.one_le_sqrt]
        have hz : (1 : ℤ) ≤ ((j0 : ℤ) - j) ^ 2 + ((i0 : ℤ) - i) ^ 2 := by
          rcases (by omega : i ≠ i0 ∨ j ≠ j0) with h | h
          · have : ((i0 : ℤ) - i) ≠ 0 := by omega
            have := sq_nonneg ((j0 : ℤ) - j)
            have h3 : 0 < ((i0 : ℤ) - i) ^ 2 := by positivity
            omega
          · have : ((j0 : ℤ) - j) ≠ 0 := by omega
            have := sq_nonneg ((i0 : ℤ) - i)
            have h3 : 0 < ((j0 : ℤ) - j) ^ 2 := by positivity
            omega
        have : (1 : ℝ) ≤ ((j0 : ℝ) - j) ^ 2 + ((i0 : ℝ) - i) ^ 2 := by exact_mod_cast hz
        have e : ((j0 + 1 : ℝ) - (j + 1)) ^ 2 + ((i0 + 1 : ℝ) - (i + 1)) ^ 2 = ((j0 : ℝ) - j) ^ 2 + ((i0 : ℝ) - i) ^ 2 := by ring
        rw [e]
        exact this
      have hpos : 1 / 1000000 < size * √(((j0 + 1 : ℝ) - (j + 1)) ^ 2 + ((i0 + 1 : ℝ) - (i + 1)) ^ 2) := by nlinarith
      rw [if_pos hpos]
      have : size * √(((j0 + 1 : ℝ) - (j + 1)) ^ 2 + ((i0 + 1 : ℝ) - (i + 1)) ^ 2) ≠ 0 := fun h => by
        rw [h] at hpos
        norm_num at hpos
      rw [mul_div_assoc, div_self this, mul_one]
  have hidx : ∀ (n k : Nat) (t : ℝ), k + 1 < n → 0 ≤ t → t < 1 → index (k + t) n = k := by
    intro n k t hk h0 h1
    have hn : ((k : ℝ) + 1) + 1 ≤ n := by exact_mod_cast hk
    have hk0 : (0 : ℝ) ≤ k := Nat.cast_nonneg _
    obtain ⟨a, b⟩ := index_in (val := k + t) (n := n) (by omega) (by linarith) (by linarith)
    have hlt : index (k + t) n < k + 1 := by
      have : (index (k + t) n : ℝ) < k + 1 := by linarith
      exact_mod_cast this
    rcases Nat.lt_or_ge (index (k + t) n) k with h | h
    · -- the index is at least the floor
      exfalso
      have hb : (index (k + t) n : ℝ) + 1 ≤ k := by exact_mod_cast h
      have ht0 : t = 0 := by linarith
      subst ht0
      have hc : cut ((k : ℝ) + 0) n = k := by
        unfold cut
        rw [add_zero, if_neg (not_lt.2 hk0), if_neg (fun hh => by linarith [hh.2])]
      have : index ((k : ℝ) + 0) n = k := by
        unfold index
        simp only
        rw [if_neg (by omega), hc, Int.floor_natCast, Int.toNat_natCast]
        omega
      omega
    · omega
  rw [bilinear_ok ht (by omega) (by omega), hidx n2 i0 v hi hv hv1, hidx n1 j0 u hj hu hu1]
  congr 1
  unfold lerp2
  simp
  ring

/-- The hypotheses can be met. -/
example : ∃ (n1 n2 i0 j0 : Nat) (u v : ℝ), i0 + 1 < n2 ∧ j0 + 1 < n1 ∧ 0 ≤ u ∧ u < 1 ∧ 0 ≤ v ∧ v < 1 ∧
    (1 - (1 - u) * (1 - v)) ≠ 1 :=
  ⟨4, 3, 1, 2, 1 / 4, 1 / 4, by norm_num, by norm_num, by norm_num, by norm_num, by norm_num, by norm_num, by norm_num⟩

/-! ### The mean over the pixel -/

/-- C89.  The estimate from `n×n` parts is the mean of the function at the centres of the parts; it
stays between bounds of the function. -/
theorem C89_mean (z : List (List ℝ)) (n2 n1 : Nat) (Z : Nat → Nat → ℝ) (h : IsTable z n2 n1 Z) (h2 : 2 ≤ n2) (h1 : 2 ≤ n1)
    (psf : ℝ → ℝ) (size : ℝ) (src pix : ℝ × ℝ) (n : Nat) (hn : 0 < n) :
    ∃ (v : ℝ) (d : Nat → Nat → ℝ), fast psf size src pix z n = .ok v ∧ v = mean2 n (fun i j => psf (d i j)) ∧
      (∀ i j, ∃ s, bilinear (centre pix.2 n j - 1) (centre pix.1 n i - 1) z = .ok s ∧
        d i j = size * √((src.1 - centre pix.1 n i) ^ 2 + (src.2 - centre pix.2 n j) ^ 2) * (1 + s)) ∧
      ∀ lo hi, (∀ t, lo ≤ psf t ∧ psf t ≤ hi) → lo ≤ v ∧ v ≤ hi := by
  let S : ℝ → ℝ → ℝ := fun x y => lerp2 (y - 1 - index (y - 1) n2) (x - 1 - index (x - 1) n1)
    (Z (index (y - 1) n2) (index (x - 1) n1)) (Z (index (y - 1) n2) (index (x - 1) n1 + 1))
    (Z (index (y - 1) n2 + 1) (index (x - 1) n1)) (Z (index (y - 1) n2 + 1) (index (x - 1) n1 + 1))
  have hS : ∀ x y, bilinear (y - 1) (x - 1) z = .ok (S x y) := fun x y => bilinear_ok h h2 h1 _ _
  refine ⟨_, fun i j => planeDist size src (centre pix.1 n i) (centre pix.2 n j) * (1 + S (centre pix.1 n i) (centre pix.2 n j)),
    fast_ok hn (S := S) (fun i j _ _ => hS _ _), rfl, fun i j => ⟨_, hS _ _, rfl⟩, fun lo hi hb => ?_⟩
  exact mean2_between hn fun i j _ _ => hb _

/-- The hypotheses can be met. -/
example : ∃ z Z, IsTable z 2 2 Z := ⟨_, _, replicate_table 2 2⟩

/-- C89.  The centres of the parts lie inside the pixel, symmetric to its centre. -/
theorem C89_parts (c : ℝ) (n i : Nat) (hi : i < n) :
    c - 1 / 2 < sub c i n ∧ sub c i n < c + 1 / 2 ∧ sub c i n + sub c (n - 1 - i) n = 2 * c := by
  have hn : (0 : ℝ) < n := by exact_mod_cast (by omega : 0 < n)
  have h1 : (i : ℝ) + 1 ≤ n := by exact_mod_cast hi
  have h0 : (0 : ℝ) ≤ i := Nat.cast_nonneg _
  rw [sub_eq _ _ _ (by omega), sub_eq _ _ _ (by omega)]
  unfold centre
  refine ⟨?_, ?_, ?_⟩
  · have : (0 : ℝ) < (2 * i + 1) / (2 * n) := by positivity
    linarith
  · have : ((2 * i + 1 : ℝ)) / (2 * n) < 1 := by rw [div_lt_one (by positivity)]; linarith
    linarith
  · have e : ((n - 1 - i : Nat) : ℝ) = n - 1 - i := by
      rw [Nat.cast_sub (by omega), Nat.cast_sub (by omega)]; norm_num
    rw [e]
    field_simp
    ring

/-- The hypotheses can be met. -/
example : (3 : Nat) < 4 := by norm_num

/-! ### The adaptive estimate -/

/-- The value before level `e`. -/
def prev (F : Nat → ℝ) (v0 : ℝ) (e : Nat) : ℝ := if e = 1 then v0 else F (2 ^ (e - 1))

/-- The conditions to stop at level `e`. -/
def Stops (F : Nat → ℝ) (v0 ftol : ℝ) (e : Nat) : Prop :=
  F (2 ^ e) = prev F v0 e ∨ F (2 ^ e) = 0 ∨ |F (2 ^ e) - prev F v0 e| < ftol * |F (2 ^ e)| ∨ 6 ≤ e

private theorem adapt_spec {f : Nat → Res ℝ} {F : Nat → ℝ} (hf : ∀ n, 0 < n → f n = .ok (F n)) (v0 ftol : ℝ) :
    ∀ k e, e + k = 5 → ∃ e', e < e' ∧ e' ≤ 6 ∧ adapt f ftol e (prev F v0 (e + 1)) = .ok (F (2 ^ e')) ∧ Stops F v0 ftol e' ∧
      ∀ e'', e < e'' → e'' < e' → ¬ Stops F v0 ftol e'' := by
  intro k
  induction k with
  | zero =>
    intro e he
    obtain rfl : e = 5 := by omega
    refine ⟨6, by omega, by omega, ?_, Or.inr (Or.inr (Or.inr le_rfl)), fun e'' h h' => by omega⟩
    rw [adapt, hf _ (by positivity), Res.bind_ok]
    split
    · rfl
    · rw [dif_pos (Or.inr (by norm_num))]
  | succ k ih =>
    intro e he
    have hst : Stops F v0 ftol (e + 1) ↔ (F (2 ^ (e + 1)) - prev F v0 (e + 1) = 0 ∨ F (2 ^ (e + 1)) = 0) ∨
        (|(F (2 ^ (e + 1)) - prev F v0 (e + 1)) / F (2 ^ (e + 1))| < ftol ∨ 64 ≤ 2 ^ (e + 1)) := by
      unfold Stops
      rw [sub_eq_zero]
      have h64 : (64 ≤ 2 ^ (e + 1)) ↔ 6 ≤ e + 1 := by
        rw [show 64 = 2 ^ 6 by norm_num]
        exact Nat.pow_le_pow_iff_right (by norm_num)
      rw [h64]
      by_cases h0 : F (2 ^ (e + 1)) = 0
      · simp [h0]
      · have hp : 0 < |F (2 ^ (e + 1))| := abs_pos.2 h0
        rw [abs_div, div_lt_iff₀ hp]
        tauto
    by_cases hs : Stops F v0 ftol (e + 1)
    · refine ⟨e + 1, by omega, by omega, ?_, hs, fun e'' h h' => by omega⟩
      rw [adapt, hf _ (by positivity), Res.bind_ok]
      rcases hst.1 hs with h | h
      · rw [if_pos h]
      · by_cases h0 : F (2 ^ (e + 1)) - prev F v0 (e + 1) = 0 ∨ F (2 ^ (e + 1)) = 0
        · rw [if_pos h0]
        · rw [if_neg h0, dif_pos h]
    · obtain ⟨e', a1, a2, a3, a4, a5⟩ := ih (e + 1) (by omega)
      refine ⟨e', by omega, a2, ?_, a4, fun e'' h h' => ?_⟩
      · rw [adapt, hf _ (by positivity), Res.bind_ok]
        have hn := fun h => hs (hst.2 h)
        rw [if_neg (fun h => hn (Or.inl h)), dif_neg (fun h => hn (Or.inr h)), ← a3]
        congr 1
      · rcases Nat.eq_or_lt_of_le (show e + 1 ≤ e'' from h) with rfl | h''
        · exact hs
        · exact a5 e'' h'' h'

/-- C89.  The adaptive estimate ends: above the threshold it is the estimate from `2^e × 2^e` parts
for the first `e` up to six at which it changed by less than the tolerance, or not at all, or is zero;
below the threshold it is the value at the centre. -/
theorem C89_adaptive (psf : ℝ → ℝ) (peak offset ftol threshold : ℝ) (f : Nat → Res ℝ) (F : Nat → ℝ)
    (hf : ∀ n, 0 < n → f n = .ok (F n)) :
    ((peak ≠ 0 ∧ psf offset / peak < threshold ∨ peak = 0 ∧ 0 < threshold) →
      adaptive psf peak offset ftol threshold f = .ok (psf offset)) ∧
    ((peak ≠ 0 ∧ threshold ≤ psf offset / peak ∨ peak = 0 ∧ threshold ≤ 0) →
      ∃ e, 1 ≤ e ∧ e ≤ 6 ∧ adaptive psf peak offset ftol threshold f = .ok (F (2 ^ e)) ∧
        Stops F (psf offset) ftol e ∧ ∀ e', 1 ≤ e' → e' < e → ¬ Stops F (psf offset) ftol e') := by
  constructor
  · intro h
    unfold adaptive peakRatio
    simp only
    rw [if_pos]
    rcases h with ⟨h1, h2⟩ | ⟨h1, h2⟩
    · rw [if_pos h1]; exact h2
    · rw [if_neg (by simpa using h1)]; exact h2
  · intro h
    have hn : ¬ peakRatio (psf offset) peak < threshold := by
      unfold peakRatio
      rcases h with ⟨h1, h2⟩ | ⟨h1, h2⟩
      · rw [if_pos h1]; exact not_lt.2 h2
      · rw [if_neg (by simpa using h1)]; exact not_lt.2 h2
    obtain ⟨e, a1, a2, a3, a4, a5⟩ := adapt_spec hf (psf offset) ftol 5 0 (by norm_num)
    refine ⟨e, a1, a2, ?_, a4, fun e' h h' => a5 e' h h'⟩
    unfold adaptive
    simp only
    rw [if_neg hn]
    exact a3

/-- The hypotheses can be met. -/
example : ∃ (f : Nat → Res ℝ) (F : Nat → ℝ) (psf : ℝ → ℝ) (peak threshold : ℝ), (∀ n, 0 < n → f n = .ok (F n)) ∧
    peak ≠ 0 ∧ threshold ≤ psf 0 / peak :=
  ⟨fun n => .ok (1 / n), fun n => 1 / n, fun _ => 1, 2, 1 / 4, fun _ _ => rfl, by norm_num, by norm_num⟩

/-- C89 is violated for narrow functions: when the function vanishes at the centres of the 2×2 parts,
the estimate is zero, whatever it is for finer parts. -/
theorem C89_zero_violates (psf : ℝ → ℝ) (peak offset ftol threshold : ℝ) (f : Nat → Res ℝ) (hp : peak ≠ 0)
    (ht : threshold ≤ psf offset / peak) (h2 : f 2 = .ok 0) : adaptive psf peak offset ftol threshold f = .ok 0 := by
  unfold adaptive peakRatio
  simp only
  rw [if_pos hp, if_neg (not_lt.2 ht), adapt]
  norm_num
  rw [h2, Res.bind_ok, if_pos (Or.inr rfl)]

/-- The hypotheses can be met by a function that is not zero for finer parts. -/
example : ∃ (f : Nat → Res ℝ) (psf : ℝ → ℝ), (1 / 2 : ℝ) ≤ psf 0 / 1 ∧ f 2 = .ok 0 ∧ f 4 = .ok 1 :=
  ⟨fun n => if n = 2 then .ok 0 else .ok 1, fun _ => 1, by norm_num, by simp, by simp⟩

/-! ### The mean over a ring -/

private theorem deg (t : ℝ) : t * 180 / π * π / 180 = t := by
  have := pi_ne_zero
  field_simp

/-- C89.  The estimate from a ring is the integral over a cone with the solid angle of the pixel, or
over the ring around the source with the width of the pixel, divided by its solid angle; a constant
function gives the constant. -/
theorem C89_annular (integral : ℝ → ℝ) (offset sol : ℝ) (hs : 0 < sol) (hs2 : sol ≤ 4 * π)
    (h180 : offset + √sol * 180 / π / 2 ≤ 180) :
    ∃ v, annular integral offset sol = .ok v ∧
      (offset ≤ √sol * 180 / π / 2 → ∃ r, 0 ≤ r ∧ r ≤ 180 ∧ cone r = sol ∧ v * sol = integral r) ∧
      (√sol * 180 / π / 2 < offset → ∃ t1 t2, t2 - t1 = √sol * 180 / π ∧ (t1 + t2) / 2 = offset ∧ 0 < cone t2 - cone t1 ∧
        v * (cone t2 - cone t1) = integral t2 - integral t1) ∧
      ∀ c, (∀ t, integral t = c * cone t) → v = c := by
  have hpi := pi_pos
  have hsq : 0 < √sol := Real.sqrt_pos.2 hs
  have hw : 0 < √sol * 180 / π := by positivity
  unfold annular
  simp only
  by_cases h : offset ≤ √sol * 180 / π / 2
  · rw [if_pos h, if_neg hs.ne']
    have hcone : cone (arccos (1 - sol / 2 / π) * 180 / π) = sol := by
      unfold cone
      rw [deg, cos_arccos]
      · field_simp; ring
      · rw [div_div]
        have : sol / (2 * π) ≤ 2 := by rw [div_le_iff₀ (by positivity)]; linarith
        linarith
      · have : 0 < sol / 2 / π := by positivity
        linarith
    refine ⟨_, rfl, fun _ => ⟨_, ?_, ?_, hcone, div_mul_cancel₀ _ hs.ne'⟩, fun h' => absurd h (not_le.2 h'), fun c hc => ?_⟩
    · have := arccos_nonneg (1 - sol / 2 / π)
      positivity
    · have := arccos_le_pi (1 - sol / 2 / π)
      rw [div_le_iff₀ hpi]
      linarith
    · rw [hc, hcone]
      field_simp
  · rw [if_neg h]
    have h' := not_le.1 h
    have hlt : cos ((offset + √sol * 180 / π / 2) * π / 180) < cos ((offset - √sol * 180 / π / 2) * π / 180) := by
      refine strictAntiOn_cos ⟨?_, ?_⟩ ⟨?_, ?_⟩ ?_
      · have : 0 ≤ offset - √sol * 180 / π / 2 := by linarith
        positivity
      · rw [div_le_iff₀ (by norm_num)]
        nlinarith
      · have : 0 ≤ offset + √sol * 180 / π / 2 := by linarith
        positivity
      · rw [div_le_iff₀ (by norm_num)]
        nlinarith
      · rw [div_lt_div_iff_of_pos_right (by norm_num)]
        nlinarith
    have hd : 2 * π * (cos ((offset - √sol * 180 / π / 2) * π / 180) - cos ((offset + √sol * 180 / π / 2) * π / 180)) =
        cone (offset + √sol * 180 / π / 2) - cone (offset - √sol * 180 / π / 2) := by
      unfold cone; ring
    have hdpos : 0 < 2 * π * (cos ((offset - √sol * 180 / π / 2) * π / 180) - cos ((offset + √sol * 180 / π / 2) * π / 180)) := by
      have : 0 < cos ((offset - √sol * 180 / π / 2) * π / 180) - cos ((offset + √sol * 180 / π / 2) * π / 180) := by linarith
      positivity
    rw [if_neg hdpos.ne', hd]
    rw [hd] at hdpos
    refine ⟨_, rfl, fun h'' => absurd h'' h, fun _ => ⟨offset - √sol * 180 / π / 2, offset + √sol * 180 / π / 2, by ring, by ring, hdpos,
      div_mul_cancel₀ _ hdpos.ne'⟩, fun c hc => ?_⟩
    rw [hc, hc, ← mul_sub, mul_div_assoc, div_self hdpos.ne', mul_one]

/-- The hypotheses can be met: a pixel of one square degree at five degrees. -/
example : 0 < (π / 180) ^ 2 ∧ (π / 180) ^ 2 ≤ 4 * π ∧ 5 + √((π / 180) ^ 2) * 180 / π / 2 ≤ 180 := by
  have hpi := pi_pos
  have h4 := pi_le_four
  refine ⟨by positivity, by nlinarith, ?_⟩
  rw [Real.sqrt_sq (by positivity)]
  have : π / 180 * 180 / π / 2 = 1 / 2 := by field_simp
  rw [this]
  norm_num

/-- C89 is violated for the pixel opposite to the source: the ring reaches beyond 180 degrees, its
solid angle comes out as zero and the estimate divides by it. -/
theorem C89_opposite_violates (integral : ℝ → ℝ) (sol : ℝ) (hs2 : √sol * 180 / π / 2 < 180) :
    annular integral 180 sol = .ub := by
  have hpi := pi_pos
  unfold annular
  simp only
  rw [if_neg (not_le.2 hs2), if_pos]
  have e : cos ((180 - √sol * 180 / π / 2) * π / 180) = cos ((180 + √sol * 180 / π / 2) * π / 180) := by
    have e1 : (180 - √sol * 180 / π / 2) * π / 180 = π - √sol / 2 := by field_simp
    have e2 : (180 + √sol * 180 / π / 2) * π / 180 = √sol / 2 + π := by field_simp; ring
    rw [e1, e2, cos_pi_sub, cos_add_pi]
  rw [e, sub_self, mul_zero]

/-- The hypotheses can be met. -/
example : √((π / 180) ^ 2) * 180 / π / 2 < 180 := by
  have hpi := pi_pos
  rw [Real.sqrt_sq (by positivity)]
  have : π / 180 * 180 / π / 2 = 1 / 2 := by field_simp
  rw [this]
  norm_num

end Verif.PsfInt
