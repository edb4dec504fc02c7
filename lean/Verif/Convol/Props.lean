import Verif.Convol.Lemmas
import Mathlib.Data.Int.ModEq
/-
C126: convolution of images.
-/
set_option linter.unusedSectionVars false
set_option linter.unusedSimpArgs false
set_option linter.unusedVariables false
namespace Verif.Convol
open Vec
open Finset hiding val sum_val

theorem part2 {N d n e m : Nat} (h1 : d + n ≤ N) (h2 : e + m ≤ N) (f : Nat → Nat → ℝ) :
    ∑ p ∈ range N, ∑ q ∈ range N, (if (d ≤ p ∧ p < d + n) ∧ e ≤ q ∧ q < e + m then f (p - d) (q - e) else 0) =
      ∑ p ∈ range n, ∑ q ∈ range m, f p q := by
  rw [← sum_part h1 (fun p => ∑ q ∈ range m, f p q)]
  apply sum_congr rfl
  intro p _
  by_cases h : d ≤ p ∧ p < d + n
  · rw [if_pos h, ← sum_part h2 (fun q => f (p - d) q)]
    simp only [h, true_and, and_self]
  · rw [if_neg h]
    apply sum_eq_zero
    intro q _
    rw [if_neg (fun c => h c.1)]

theorem pix_map {ny nx i j : Nat} (F : Nat → Nat → ℝ) (hi : i < ny) (hj : j < nx) :
    pix ((List.range ny).map fun i => (List.range nx).map fun j => F i j) i j = F i j := by
  unfold pix
  rw [List.getElem?_map, List.getElem?_range hi]
  simp only [Option.map_some, Option.getD_some]
  exact val_map_range _ hj

theorem rect_map (ny nx : Nat) (F : Nat → Nat → ℝ) : Rect ((List.range ny).map fun i => (List.range nx).map fun j => F i j) ny nx := by
  constructor
  · simp
  · intro r hr
    obtain ⟨i, _, rfl⟩ := List.mem_map.1 hr
    simp

/-- C126: the convolution of an image with a kernel that is not larger is the sum over the pixels of the image, spread like the kernel;
nothing comes back on the other side of the image. -/
theorem C126_linear (s k : Image) (ny nx py px : Nat) (hs : Rect s ny nx) (hk : Rect k py px) (hpy : 0 < py) (hy : py ≤ ny)
    (hx : px ≤ max nx ny) :
    ∃ out, convolve2d s k = .ok out ∧ Rect out ny nx ∧ ∀ i < ny, ∀ j < nx, pix out i j = Spec.conv s k ny nx py px i j := by
  have hsl := hs.1
  have hkl := hk.1
  have hs0 : ∃ r, s[0]? = some r ∧ r.length = nx := by
    have : 0 < s.length := by omega
    exact ⟨s[0], List.getElem?_eq_getElem this, hs.2 _ (List.getElem_mem _)⟩
  obtain ⟨r0, hr0, hr0'⟩ := hs0
  set M := max nx ny with hM
  have hM1 : nx ≤ M := le_max_left _ _
  have hM2 : ny ≤ M := le_max_right _ _
  have hpad : padded s r0 = 2 * M := by unfold padded; rw [hr0', hsl]
  have hn : 0 < 2 * M := by omega
  obtain ⟨a, ha, ha'⟩ := complexArray_ok (n := 2 * M) hs (by omega) (by omega) (by omega)
  obtain ⟨b, hb, hb'⟩ := complexArray_ok (n := 2 * M) hk hpy (by omega) (by omega)
  unfold convolve2d
  rw [if_neg (by omega), vat_some hr0, Res.bind_ok]
  simp only [hpad]
  rw [ha, Res.bind_ok, hb, Res.bind_ok]
  rw [subArray_ok (F := fun i j => (val (dft2 1 (2 * M) (2 * M) (List.zipWith (· * ·) (dft2 (-1) (2 * M) (2 * M) a)
    (dft2 (-1) (2 * M) (2 * M) b))) (i * (2 * M) + j)).re / ((2 * M * (2 * M) : Nat) : ℝ)) hs (by omega) (by omega) (by omega) rfl (by omega)]
  refine ⟨_, rfl, rect_map _ _ _, ?_⟩
  intro i hi j hj
  rw [pix_map _ hi hj]
  set I := (i + (2 * M - ny) / 2 + (2 * M / 2 - 1)) % (2 * M) with hI
  set J := (j + (2 * M - nx) / 2 + (2 * M / 2 - 1)) % (2 * M) with hJ
  rw [back2 hn a b (Nat.mod_lt _ hn) (Nat.mod_lt _ hn)]
  -- the sum is real
  set A : Nat → Nat → ℝ := fun p q => if ((2 * M - ny) / 2 ≤ p ∧ p < (2 * M - ny) / 2 + ny) ∧ (2 * M - nx) / 2 ≤ q ∧
    q < (2 * M - nx) / 2 + nx then pix s (p - (2 * M - ny) / 2) (q - (2 * M - nx) / 2) else 0 with hA
  set B : Nat → Nat → ℝ := fun p q => if ((2 * M - py) / 2 ≤ p ∧ p < (2 * M - py) / 2 + py) ∧ (2 * M - px) / 2 ≤ q ∧
    q < (2 * M - px) / 2 + px then pix k (p - (2 * M - py) / 2) (q - (2 * M - px) / 2) else 0 with hB
  have hreal : (∑ p ∈ range (2 * M), ∑ q ∈ range (2 * M), ∑ r ∈ range (2 * M), ∑ u ∈ range (2 * M),
      if ((2 * M : Nat) : ℤ) ∣ (I : ℤ) - p - r ∧ ((2 * M : Nat) : ℤ) ∣ (J : ℤ) - q - u then
        val a (p * (2 * M) + q) * val b (r * (2 * M) + u) else 0) =
      ((∑ p ∈ range (2 * M), ∑ q ∈ range (2 * M), ∑ r ∈ range (2 * M), ∑ u ∈ range (2 * M),
        if ((2 * M : Nat) : ℤ) ∣ (I : ℤ) - p - r ∧ ((2 * M : Nat) : ℤ) ∣ (J : ℤ) - q - u then A p q * B r u else 0 : ℝ) : ℂ) := by
    rw [Complex.ofReal_sum]
    apply sum_congr rfl; intro p hp
    rw [Complex.ofReal_sum]
    apply sum_congr rfl; intro q hq
    rw [Complex.ofReal_sum]
    apply sum_congr rfl; intro r hr
    rw [Complex.ofReal_sum]
    apply sum_congr rfl; intro u hu
    have e1 : val a (p * (2 * M) + q) = ((A p q : ℝ) : ℂ) := by
      rw [ha' p (mem_range.1 hp) q (mem_range.1 hq), hA]
      simp only
      split <;> simp
    have e2 : val b (r * (2 * M) + u) = ((B r u : ℝ) : ℂ) := by
      rw [hb' r (mem_range.1 hr) u (mem_range.1 hu), hB]
      simp only
      split <;> simp
    rw [e1, e2]
    split <;> simp
  rw [hreal]
  have hre : ∀ x : ℝ, ((((2 * M : Nat) : ℂ) * ((2 * M : Nat) : ℂ)) * (x : ℂ)).re / ((2 * M * (2 * M) : Nat) : ℝ) = x := by
    intro x
    have e : (((2 * M : Nat) : ℂ) * ((2 * M : Nat) : ℂ)) * (x : ℂ) = ((((2 * M * (2 * M) : Nat) : ℝ) * x : ℝ) : ℂ) := by push_cast; ring
    rw [e, Complex.ofReal_re]
    have : ((2 * M * (2 * M) : Nat) : ℝ) ≠ 0 := by
      have : 2 * M * (2 * M) ≠ 0 := by positivity
      exact_mod_cast this
    field_simp
  rw [hre]
  -- only the pixels of image and kernel count
  set G : Nat → Nat → Nat → Nat → ℝ := fun p q r u =>
    if ((2 * M : Nat) : ℤ) ∣ (I : ℤ) - ((p + (2 * M - ny) / 2 : Nat) : ℤ) - ((r + (2 * M - py) / 2 : Nat) : ℤ) ∧
        ((2 * M : Nat) : ℤ) ∣ (J : ℤ) - ((q + (2 * M - nx) / 2 : Nat) : ℤ) - ((u + (2 * M - px) / 2 : Nat) : ℤ) then
      pix s p q * pix k r u else 0 with hG
  have h1 : ∀ p ∈ range (2 * M), ∀ q ∈ range (2 * M), (∑ r ∈ range (2 * M), ∑ u ∈ range (2 * M),
      if ((2 * M : Nat) : ℤ) ∣ (I : ℤ) - p - r ∧ ((2 * M : Nat) : ℤ) ∣ (J : ℤ) - q - u then A p q * B r u else 0) =
      if ((2 * M - ny) / 2 ≤ p ∧ p < (2 * M - ny) / 2 + ny) ∧ (2 * M - nx) / 2 ≤ q ∧ q < (2 * M - nx) / 2 + nx then
        ∑ r ∈ range py, ∑ u ∈ range px, G (p - (2 * M - ny) / 2) (q - (2 * M - nx) / 2) r u else 0 := by
    intro p _ q _
    by_cases c : ((2 * M - ny) / 2 ≤ p ∧ p < (2 * M - ny) / 2 + ny) ∧ (2 * M - nx) / 2 ≤ q ∧ q < (2 * M - nx) / 2 + nx
    · rw [if_pos c, ← part2 (N := 2 * M) (d := (2 * M - py) / 2) (e := (2 * M - px) / 2) (n := py) (m := px) (by omega) (by omega)
        (fun r u => G (p - (2 * M - ny) / 2) (q - (2 * M - nx) / 2) r u)]
      apply sum_congr rfl; intro r _
      apply sum_congr rfl; intro u _
      by_cases c' : ((2 * M - py) / 2 ≤ r ∧ r < (2 * M - py) / 2 + py) ∧ (2 * M - px) / 2 ≤ u ∧ u < (2 * M - px) / 2 + px
      · rw [if_pos c', hA, hB, hG]
        simp only [c, c', if_true, and_self]
        rw [show p - (2 * M - ny) / 2 + (2 * M - ny) / 2 = p by omega, show q - (2 * M - nx) / 2 + (2 * M - nx) / 2 = q by omega,
          show r - (2 * M - py) / 2 + (2 * M - py) / 2 = r by omega, show u - (2 * M - px) / 2 + (2 * M - px) / 2 = u by omega]
      · rw [if_neg c']
        have : B r u = 0 := by rw [hB]; simp only; rw [if_neg c']
        rw [this, mul_zero, ite_self]
    · rw [if_neg c]
      apply sum_eq_zero; intro r _
      apply sum_eq_zero; intro u _
      have : A p q = 0 := by rw [hA]; simp only; rw [if_neg c]
      rw [this, zero_mul, ite_self]
  rw [sum_congr rfl (fun p hp => sum_congr rfl (h1 p hp)), part2 (by omega) (by omega)
    (fun p q => ∑ r ∈ range py, ∑ u ∈ range px, G p q r u)]
  unfold Spec.conv
  apply sum_congr rfl; intro p hp
  apply sum_congr rfl; intro q hq
  apply sum_congr rfl; intro r hr
  apply sum_congr rfl; intro u hu
  rw [hG]
  simp only
  rw [hI, hJ]
  simp only [meet hM2 (show py ≤ M by omega) hi (mem_range.1 hp) (mem_range.1 hr),
    meet hM1 (show px ≤ M by omega) hj (mem_range.1 hq) (mem_range.1 hu)]

/-- A case in which the hypotheses hold. -/
example : ∃ out, convolve2d [[1, 2, 3]] [[4, 5, 6]] = .ok out ∧ pix out 0 0 = 1 * 5 + 2 * 4 := by
  obtain ⟨out, h1, _, h3⟩ := C126_linear [[1, 2, 3]] [[4, 5, 6]] 1 3 1 3 ⟨rfl, by simp⟩ ⟨rfl, by simp⟩ (by norm_num) le_rfl (by norm_num)
  refine ⟨out, h1, ?_⟩
  rw [h3 0 (by norm_num) 0 (by norm_num)]
  norm_num [Spec.conv, Spec.mid, sum_range_succ, pix, val]

/-! ### Consequences -/

/-- C126: a kernel that is one in its middle and zero elsewhere does not change the image. -/
theorem C126_identity (s k : Image) (ny nx py px : Nat) (hs : Rect s ny nx) (hk : Rect k py px) (hpy : 0 < py) (hy : py ≤ ny)
    (hpx : 0 < px) (hx : px ≤ max nx ny)
    (hone : ∀ r < py, ∀ u < px, pix k r u = if r = (py - 1) / 2 ∧ u = (px - 1) / 2 then 1 else 0) :
    ∃ out, convolve2d s k = .ok out ∧ ∀ i < ny, ∀ j < nx, pix out i j = pix s i j := by
  obtain ⟨out, h1, _, h3⟩ := C126_linear s k ny nx py px hs hk hpy hy hx
  refine ⟨out, h1, ?_⟩
  intro i hi j hj
  rw [h3 i hi j hj]
  unfold Spec.conv Spec.mid
  rw [sum_eq_single_of_mem i (mem_range.2 hi)]
  · rw [sum_eq_single_of_mem j (mem_range.2 hj)]
    · rw [sum_eq_single_of_mem ((py - 1) / 2) (mem_range.2 (by omega))]
      · rw [sum_eq_single_of_mem ((px - 1) / 2) (mem_range.2 (by omega))]
        · rw [if_pos ⟨rfl, rfl⟩, hone _ (by omega) _ (by omega), if_pos ⟨rfl, rfl⟩, mul_one]
        · intro u _ hu
          rw [if_neg (by omega)]
      · intro r _ hr
        apply sum_eq_zero; intro u _
        rw [if_neg (by omega)]
    · intro q _ hq
      apply sum_eq_zero; intro r hr
      apply sum_eq_zero; intro u hu
      split
      · rw [hone r (mem_range.1 hr) u (mem_range.1 hu), if_neg (by omega), mul_zero]
      · rfl
  · intro p _ hp
    apply sum_eq_zero; intro q hq
    apply sum_eq_zero; intro r hr
    apply sum_eq_zero; intro u hu
    split
    · rw [hone r (mem_range.1 hr) u (mem_range.1 hu), if_neg (by omega), mul_zero]
    · rfl

/-- C126: a convolution of numbers that are not negative is not negative. -/
theorem C126_nonneg (s k : Image) (ny nx py px : Nat) (hs : Rect s ny nx) (hk : Rect k py px) (hpy : 0 < py) (hy : py ≤ ny)
    (hx : px ≤ max nx ny) (h1 : ∀ p q, 0 ≤ pix s p q) (h2 : ∀ r u, 0 ≤ pix k r u) :
    ∃ out, convolve2d s k = .ok out ∧ ∀ i < ny, ∀ j < nx, 0 ≤ pix out i j := by
  obtain ⟨out, e1, _, e3⟩ := C126_linear s k ny nx py px hs hk hpy hy hx
  refine ⟨out, e1, ?_⟩
  intro i hi j hj
  rw [e3 i hi j hj]
  unfold Spec.conv
  refine sum_nonneg fun p _ => sum_nonneg fun q _ => sum_nonneg fun r _ => sum_nonneg fun u _ => ?_
  split
  · exact mul_nonneg (h1 _ _) (h2 _ _)
  · exact le_rfl

/-- How often a pair of pixels meets. -/
theorem sum_meet {n a m : Nat} (x : ℝ) (h1 : m ≤ a) (h2 : a < n + m) : ∑ i ∈ range n, (if a = i + m then x else 0) = x := by
  rw [sum_eq_single_of_mem (a - m) (mem_range.2 (by omega)), if_pos (by omega)]
  intro i _ hi
  rw [if_neg (by omega)]

/-- C126: if the kernel, put on any pixel that is not zero, stays inside the image, the sum of the image is multiplied by the sum of the kernel. -/
theorem C126_total (s k : Image) (ny nx py px : Nat) (hs : Rect s ny nx) (hk : Rect k py px) (hpy : 0 < py) (hy : py ≤ ny)
    (hx : px ≤ max nx ny)
    (hin : ∀ p < ny, ∀ q < nx, pix s p q ≠ 0 → (py - 1) / 2 ≤ p ∧ p + (py - 1 - (py - 1) / 2) < ny ∧
      (px - 1) / 2 ≤ q ∧ q + (px - 1 - (px - 1) / 2) < nx) :
    ∃ out, convolve2d s k = .ok out ∧ Spec.total out ny nx = Spec.total s ny nx * Spec.total k py px := by
  obtain ⟨out, e1, _, e3⟩ := C126_linear s k ny nx py px hs hk hpy hy hx
  refine ⟨out, e1, ?_⟩
  unfold Spec.total
  rw [sum_congr rfl (fun i hi => sum_congr rfl (fun j hj => e3 i (mem_range.1 hi) j (mem_range.1 hj)))]
  unfold Spec.conv
  have sw : ∀ (m : Nat) (F : Nat → Nat → Nat → ℝ), ∑ i ∈ range ny, ∑ j ∈ range nx, ∑ p ∈ range m, F i j p =
      ∑ p ∈ range m, ∑ i ∈ range ny, ∑ j ∈ range nx, F i j p := by
    intro m F
    rw [sum_congr rfl (fun i _ => sum_comm), sum_comm]
  rw [sw, sum_mul]
  apply sum_congr rfl; intro p hp
  rw [sw, sum_mul]
  apply sum_congr rfl; intro q hq
  rw [sw, mul_sum]
  apply sum_congr rfl; intro r hr
  rw [sw, mul_sum]
  apply sum_congr rfl; intro u hu
  by_cases h0 : pix s p q = 0
  · rw [h0, zero_mul]
    apply sum_eq_zero; intro i _
    apply sum_eq_zero; intro j _
    exact ite_self _
  · obtain ⟨i1, i2, i3, i4⟩ := hin p (mem_range.1 hp) q (mem_range.1 hq) h0
    have hr' := mem_range.1 hr
    have hu' := mem_range.1 hu
    have : ∀ i ∈ range ny, (∑ j ∈ range nx, if p + r = i + Spec.mid py ∧ q + u = j + Spec.mid px then pix s p q * pix k r u else 0) =
        if p + r = i + Spec.mid py then pix s p q * pix k r u else 0 := by
      intro i _
      by_cases c : p + r = i + Spec.mid py
      · simp only [c, true_and, if_true]
        exact sum_meet _ (by unfold Spec.mid; omega) (by unfold Spec.mid; omega)
      · simp only [c, false_and, if_false, sum_const_zero]
    rw [sum_congr rfl this]
    exact sum_meet _ (by unfold Spec.mid; omega) (by unfold Spec.mid; omega)

/-- C126: in an image of equal pixels, pixels that the kernel can reach from all sides are multiplied by the sum of the kernel. -/
theorem C126_flat (s k : Image) (ny nx py px : Nat) (c : ℝ) (hs : Rect s ny nx) (hk : Rect k py px) (hpy : 0 < py) (hy : py ≤ ny)
    (hx : px ≤ max nx ny) (hc : ∀ p < ny, ∀ q < nx, pix s p q = c) :
    ∃ out, convolve2d s k = .ok out ∧ ∀ i j, i + (py - 1) / 2 < ny → py - 1 ≤ i + (py - 1) / 2 → j + (px - 1) / 2 < nx →
      px - 1 ≤ j + (px - 1) / 2 → pix out i j = c * Spec.total k py px := by
  obtain ⟨out, e1, _, e3⟩ := C126_linear s k ny nx py px hs hk hpy hy hx
  refine ⟨out, e1, ?_⟩
  intro i j i1 i2 j1 j2
  rw [e3 i (by omega) j (by omega)]
  unfold Spec.conv Spec.total
  have sw : ∀ F : Nat → Nat → Nat → Nat → ℝ, ∑ p ∈ range ny, ∑ q ∈ range nx, ∑ r ∈ range py, ∑ u ∈ range px, F p q r u =
      ∑ r ∈ range py, ∑ u ∈ range px, ∑ p ∈ range ny, ∑ q ∈ range nx, F p q r u := by
    intro F
    have h1 : ∀ p ∈ range ny, ∑ q ∈ range nx, ∑ r ∈ range py, ∑ u ∈ range px, F p q r u =
        ∑ r ∈ range py, ∑ u ∈ range px, ∑ q ∈ range nx, F p q r u := by
      intro p _
      rw [sum_comm]
      exact sum_congr rfl (fun r _ => sum_comm)
    rw [sum_congr rfl h1, sum_comm]
    exact sum_congr rfl (fun r _ => sum_comm)
  rw [sw, mul_sum]
  apply sum_congr rfl; intro r hr
  rw [mul_sum]
  apply sum_congr rfl; intro u hu
  have hr' := mem_range.1 hr
  have hu' := mem_range.1 hu
  unfold Spec.mid
  rw [sum_eq_single_of_mem (i + (py - 1) / 2 - r) (mem_range.2 (by omega))]
  · rw [sum_eq_single_of_mem (j + (px - 1) / 2 - u) (mem_range.2 (by omega))]
    · rw [if_pos (by omega), hc _ (by omega) _ (by omega)]
    · intro q _ hq
      rw [if_neg (by omega)]
  · intro p _ hp
    apply sum_eq_zero; intro q _
    rw [if_neg (by omega)]

/-- Cases in which the hypotheses of the consequences hold. -/
example : (∃ out, convolve2d [[1, 2], [3, 4]] [[1]] = .ok out ∧ pix out 1 0 = 3) ∧
    (∃ out, convolve2d [[0, 7, 0]] [[1, 2, 3]] = .ok out ∧ Spec.total out 1 3 = 42) ∧
    (∃ out, convolve2d [[7, 7, 7]] [[1, 2, 3]] = .ok out ∧ pix out 0 1 = 42) := by
  refine ⟨?_, ?_, ?_⟩
  · obtain ⟨out, h1, h2⟩ := C126_identity [[1, 2], [3, 4]] [[1]] 2 2 1 1 ⟨rfl, by simp⟩ ⟨rfl, by simp⟩ (by norm_num) (by norm_num)
      (by norm_num) (by norm_num) (by
        intro r hr u hu
        obtain rfl : r = 0 := by omega
        obtain rfl : u = 0 := by omega
        norm_num [pix, val])
    exact ⟨out, h1, by rw [h2 1 (by norm_num) 0 (by norm_num)]; norm_num [pix, val]⟩
  · obtain ⟨out, h1, h2⟩ := C126_total [[0, 7, 0]] [[1, 2, 3]] 1 3 1 3 ⟨rfl, by simp⟩ ⟨rfl, by simp⟩ (by norm_num) (by norm_num)
      (by norm_num) (by
        intro p hp q hq h
        obtain rfl : p = 0 := by omega
        obtain rfl | rfl | rfl : q = 0 ∨ q = 1 ∨ q = 2 := by omega
        · norm_num [pix, val] at h
        · norm_num
        · norm_num [pix, val] at h)
    exact ⟨out, h1, by rw [h2]; norm_num [Spec.total, sum_range_succ, pix, val]⟩
  · obtain ⟨out, h1, h2⟩ := C126_flat [[7, 7, 7]] [[1, 2, 3]] 1 3 1 3 7 ⟨rfl, by simp⟩ ⟨rfl, by simp⟩ (by norm_num) (by norm_num)
      (by norm_num) (by
        intro p hp q hq
        obtain rfl : p = 0 := by omega
        obtain rfl | rfl | rfl : q = 0 ∨ q = 1 ∨ q = 2 := by omega
        all_goals norm_num [pix, val])
    exact ⟨out, h1, by rw [h2 0 1 (by norm_num) (by norm_num) (by norm_num) (by norm_num)]; norm_num [Spec.total, sum_range_succ, pix, val]⟩

/-! ### Maps -/

theorem npix_eq (n1 n2 : Nat) : npix n1 n2 = Spec.odd n1 n2 := by
  unfold npix Spec.odd
  have : (if n1 ≤ n2 then n1 else n2) = min n1 n2 := by
    split
    · rw [Nat.min_eq_left (by omega)]
    · rw [Nat.min_eq_right (by omega)]
  simp only [this]

theorem checkNegative_ok {m : Image} (h : ∀ r ∈ m, ∀ x ∈ r, 0 ≤ x) : checkNegative m = .ok () := by
  unfold checkNegative
  rw [if_neg]
  intro hc
  obtain ⟨r, hr, hx⟩ := List.any_eq_true.1 hc
  obtain ⟨x, hx, hn⟩ := List.any_eq_true.1 hx
  exact absurd (@of_decide_eq_true _ (Classical.propDecidable _) hn) (not_lt.2 (h r hr x hx))

theorem sum_rows (n : Nat) (F : Nat → Nat → ℝ) :
    (((List.range n).map fun j => (List.range n).map fun i => F j i).map List.sum).sum = ∑ a ∈ range n, ∑ b ∈ range n, F a b := by
  rw [List.map_map]
  have e : ∀ g : Nat → ℝ, ((List.range n).map g).sum = ∑ a ∈ range n, g a := by
    intro g
    rw [sum_val, List.length_map, List.length_range]
    exact sum_congr rfl fun a ha => val_map_range g (mem_range.1 ha)
  rw [e]
  exact sum_congr rfl fun a _ => e _

/-- C126: a map (with at least one pixel, and intensities, exposures and a point spread function that are not negative, the latter not zero everywhere) is
convolved to counts spread like the normalized point spread function. -/
theorem C126_map (sky : Sky) (m : Image) (n1 n2 : Nat) (h1 : 0 < n1) (h2 : 0 < n2) (hm : ∀ j i, 0 ≤ pix m j i)
    (he : ∀ e, sky.expo = some e → ∀ i j, 0 ≤ e i j) (hp : ∀ t, 0 ≤ sky.psf t)
    (ht : ∑ a ∈ range (Spec.odd n1 n2), ∑ b ∈ range (Spec.odd n1 n2), Spec.psfPix sky (Spec.odd n1 n2) a b ≠ 0) :
    ∃ out, convolveMap sky m n1 n2 true = .ok out ∧ Rect out n2 n1 ∧
      ∀ j < n2, ∀ i < n1, pix out j i = Spec.spread sky m n1 n2 j i := by
  have ec : countsMap sky m n1 n2 = (List.range n2).map fun j => (List.range n1).map fun i => Spec.counts sky m j i := by
    unfold countsMap Spec.counts
    cases sky.expo <;> simp
  have ep : psfImage sky (Spec.odd n1 n2) =
      (List.range (Spec.odd n1 n2)).map fun j => (List.range (Spec.odd n1 n2)).map fun i => Spec.psfPix sky (Spec.odd n1 n2) j i := by
    unfold psfImage Spec.psfPix
    apply List.map_congr_left; intro j _
    apply List.map_congr_left; intro i _
    cases sky.angle (Spec.odd n1 n2) i j <;> rfl
  have hodd : 0 < Spec.odd n1 n2 ∧ Spec.odd n1 n2 ≤ n1 ∧ Spec.odd n1 n2 ≤ n2 := by
    unfold Spec.odd
    split <;> omega
  have hpos : ∀ j i, 0 ≤ Spec.psfPix sky (Spec.odd n1 n2) j i := by
    intro j i
    unfold Spec.psfPix
    cases sky.angle (Spec.odd n1 n2) i j with
    | none => simp
    | some t => simpa using hp t
  have hcnt : ∀ j i, 0 ≤ Spec.counts sky m j i := by
    intro j i
    unfold Spec.counts
    split
    · apply mul_nonneg (hm _ _)
      cases h : sky.expo with
      | none => simp
      | some e => simpa using he e h i j
    · exact le_rfl
  set T := ∑ a ∈ range (Spec.odd n1 n2), ∑ b ∈ range (Spec.odd n1 n2), Spec.psfPix sky (Spec.odd n1 n2) a b with hT
  have hTp : 0 ≤ T := sum_nonneg fun a _ => sum_nonneg fun b _ => hpos a b
  have hn : normalize (psfImage sky (npix n1 n2)) =
      .ok ((List.range (Spec.odd n1 n2)).map fun j => (List.range (Spec.odd n1 n2)).map fun i => Spec.psfPix sky (Spec.odd n1 n2) j i / T) := by
    rw [npix_eq, ep]
    unfold normalize
    rw [sum_rows, if_neg ht]
    congr 1
    rw [List.map_map]
    apply List.map_congr_left; intro j _
    simp only [Function.comp_apply, List.map_map]
    rfl
  unfold convolveMap
  simp only [Bool.not_true, Bool.false_eq_true, if_false]
  rw [hn, Res.bind_ok, ec, checkNegative_ok, Res.bind_ok, checkNegative_ok, Res.bind_ok]
  · obtain ⟨out, e1, e2, e3⟩ := C126_linear _ _ n2 n1 (Spec.odd n1 n2) (Spec.odd n1 n2) (rect_map n2 n1 (Spec.counts sky m))
      (rect_map (Spec.odd n1 n2) (Spec.odd n1 n2) (fun j i => Spec.psfPix sky (Spec.odd n1 n2) j i / T)) hodd.1 hodd.2.2
      (le_max_of_le_left hodd.2.1)
    refine ⟨out, e1, e2, ?_⟩
    intro j hj i hi
    rw [e3 j hj i hi]
    unfold Spec.conv Spec.spread
    apply sum_congr rfl; intro p hp
    apply sum_congr rfl; intro q hq
    apply sum_congr rfl; intro r hr
    apply sum_congr rfl; intro u hu
    rw [pix_map (Spec.counts sky m) (mem_range.1 hp) (mem_range.1 hq),
      pix_map (fun j i => Spec.psfPix sky (Spec.odd n1 n2) j i / T) (mem_range.1 hr) (mem_range.1 hu)]
  · intro r hr x hx
    obtain ⟨j, _, rfl⟩ := List.mem_map.1 hr
    obtain ⟨i, _, rfl⟩ := List.mem_map.1 hx
    exact div_nonneg (hpos _ _) hTp
  · intro r hr x hx
    obtain ⟨j, _, rfl⟩ := List.mem_map.1 hr
    obtain ⟨i, _, rfl⟩ := List.mem_map.1 hx
    exact hcnt _ _

/-- A case in which the hypotheses hold. -/
example : ∃ out, convolveMap ⟨fun _ _ => true, none, fun _ _ _ => some 0, fun _ => 3⟩ [[5, 6]] 2 1 true = .ok out ∧ pix out 0 1 = 6 := by
  obtain ⟨out, e1, _, e3⟩ := C126_map ⟨fun _ _ => true, none, fun _ _ _ => some 0, fun _ => 3⟩ [[5, 6]] 2 1 (by norm_num) (by norm_num)
    (by
      intro j i
      unfold pix
      match j, i with
      | 0, 0 => norm_num [val]
      | 0, 1 => norm_num [val]
      | 0, n + 2 => norm_num [val]
      | n + 1, _ => norm_num [val])
    (by intro e h; cases h) (by intro t; norm_num) (by norm_num [Spec.odd, Spec.psfPix])
  refine ⟨out, e1, ?_⟩
  rw [e3 0 (by norm_num) 1 (by norm_num)]
  norm_num [Spec.spread, Spec.odd, Spec.mid, Spec.counts, Spec.psfPix, sum_range_succ, pix, val]

/-- C126 violated: a point spread function that vanishes in all pixels is divided by zero. -/
theorem C126_empty_violates (sky : Sky) (m : Image) (n1 n2 : Nat)
    (h : ∀ r u, Spec.psfPix sky (Spec.odd n1 n2) r u = 0) : convolveMap sky m n1 n2 true = .ub := by
  have ep : psfImage sky (Spec.odd n1 n2) =
      (List.range (Spec.odd n1 n2)).map fun j => (List.range (Spec.odd n1 n2)).map fun i => Spec.psfPix sky (Spec.odd n1 n2) j i := by
    unfold psfImage Spec.psfPix
    apply List.map_congr_left; intro j _
    apply List.map_congr_left; intro i _
    cases sky.angle (Spec.odd n1 n2) i j <;> rfl
  unfold convolveMap
  simp only [Bool.not_true, Bool.false_eq_true, if_false]
  rw [npix_eq, ep]
  unfold normalize
  rw [sum_rows, if_pos (sum_eq_zero fun a _ => sum_eq_zero fun b _ => h a b)]
  rfl

/-! ### One dimension -/

/-- What the convolution in one dimension is: around a ring, with element `n / 2 - 1` of the kernel on the pixel. -/
theorem C126_ring_partial (s k : List ℝ) (hk : k.length = s.length) (hn : 2 ≤ s.length) :
    ∃ out, convolve1 s k = .ok out ∧ out.length = s.length ∧ ∀ i < s.length, val out i = ∑ p ∈ range s.length, ∑ r ∈ range s.length,
      if (p + r) % s.length = (i + (s.length / 2 - 1)) % s.length then val s p * val k r else 0 := by
  unfold convolve1
  rw [if_neg (by omega), if_neg (by omega)]
  refine ⟨_, rfl, by rw [List.length_map, rolled_length hn], ?_⟩
  intro i hi
  have hpos : 0 < s.length := by omega
  have e : (val ((rolled s.length).map fun i => (val (dft1 1 s.length (List.zipWith (· * ·) (dft1 (-1) s.length (s.map fun x : ℝ => (x : ℂ)))
      (dft1 (-1) s.length (k.map fun x : ℝ => (x : ℂ))))) i).re / (s.length : ℝ)) i) =
      (val (dft1 1 s.length (List.zipWith (· * ·) (dft1 (-1) s.length (s.map fun x : ℝ => (x : ℂ)))
      (dft1 (-1) s.length (k.map fun x : ℝ => (x : ℂ))))) ((i + (s.length / 2 - 1)) % s.length)).re / (s.length : ℝ) := by
    unfold val
    rw [List.getElem?_map, rolled_get hn hi]
    rfl
  rw [e, back1 hpos _ _ (Nat.mod_lt _ hpos)]
  have hv : ∀ (l : List ℝ) (p : Nat), p < l.length → val (l.map fun x : ℝ => (x : ℂ)) p = ((val l p : ℝ) : ℂ) := by
    intro l p hp
    rw [val_lt (by simpa using hp), val_lt hp, List.getElem_map]
  have hreal : (∑ p ∈ range s.length, ∑ r ∈ range s.length,
      if (s.length : ℤ) ∣ (((i + (s.length / 2 - 1)) % s.length : Nat) : ℤ) - p - r then
        val (s.map fun x : ℝ => (x : ℂ)) p * val (k.map fun x : ℝ => (x : ℂ)) r else 0) =
      ((∑ p ∈ range s.length, ∑ r ∈ range s.length,
        if (p + r) % s.length = (i + (s.length / 2 - 1)) % s.length then val s p * val k r else 0 : ℝ) : ℂ) := by
    rw [Complex.ofReal_sum]
    apply sum_congr rfl; intro p hp
    rw [Complex.ofReal_sum]
    apply sum_congr rfl; intro r hr
    rw [hv s p (mem_range.1 hp), hv k r (by rw [hk]; exact mem_range.1 hr)]
    have : (s.length : ℤ) ∣ (((i + (s.length / 2 - 1)) % s.length : Nat) : ℤ) - p - r ↔
        (p + r) % s.length = (i + (s.length / 2 - 1)) % s.length := by
      rw [Int.natCast_mod, emod_sub, show ((i + (s.length / 2 - 1) : Nat) : ℤ) - p - r = ((i + (s.length / 2 - 1) : Nat) : ℤ) - ((p + r : Nat) : ℤ) by
        push_cast; ring]
      exact Nat.modEq_iff_dvd.symm
    simp only [this]
    split <;> simp
  rw [hreal]
  have : ((s.length : ℂ) * ((∑ p ∈ range s.length, ∑ r ∈ range s.length,
      if (p + r) % s.length = (i + (s.length / 2 - 1)) % s.length then val s p * val k r else 0 : ℝ) : ℂ)) =
      (((s.length : ℝ) * (∑ p ∈ range s.length, ∑ r ∈ range s.length,
      if (p + r) % s.length = (i + (s.length / 2 - 1)) % s.length then val s p * val k r else 0) : ℝ) : ℂ) := by
    push_cast; ring
  rw [this, Complex.ofReal_re, mul_div_assoc, mul_comm, div_mul_cancel₀]
  exact_mod_cast hpos.ne'

/-- A case in which the hypotheses hold. -/
example : ∃ out, convolve1 [1, 2] [3, 4] = .ok out ∧ val out 0 = 1 * 3 + 2 * 4 := by
  obtain ⟨out, h1, _, h3⟩ := C126_ring_partial [1, 2] [3, 4] rfl le_rfl
  refine ⟨out, h1, ?_⟩
  rw [h3 0 (by simp)]
  norm_num [sum_range_succ, val]

/-- C126 violated: one number cannot be convolved, the result is read beyond its end. -/
theorem C126_single_violates (s k : ℝ) : convolve1 [s] [k] = .ub := by
  unfold convolve1
  rw [if_neg (by simp), if_pos (by simp)]

/-- C126 violated: for an odd number of elements a kernel that is one in its middle moves the signal by one element, around the ring. -/
theorem C126_shift_violates (s k : List ℝ) (m : Nat) (hm : 0 < m) (hs : s.length = 2 * m + 1) (hk : k.length = 2 * m + 1)
    (hone : ∀ r < 2 * m + 1, val k r = if r = m then 1 else 0) :
    ∃ out, convolve1 s k = .ok out ∧ val out 0 = val s (2 * m) ∧ ∀ i < 2 * m, val out (i + 1) = val s i := by
  obtain ⟨out, h1, _, h3⟩ := C126_ring_partial s k (by omega) (by omega)
  have key : ∀ i < 2 * m + 1, ∀ t < 2 * m + 1, (t + m) % (2 * m + 1) = (i + (m - 1)) % (2 * m + 1) → val out i = val s t := by
    intro i hi t ht e
    rw [h3 i (by omega), hs, show (2 * m + 1) / 2 = m by omega, sum_eq_single_of_mem t (mem_range.2 ht)]
    · rw [sum_eq_single_of_mem m (mem_range.2 (by omega)), if_pos e, hone m (by omega), if_pos rfl, mul_one]
      intro r hr hne
      rw [hone r (mem_range.1 hr), if_neg hne, mul_zero, ite_self]
    · intro p hp hne
      apply sum_eq_zero
      intro r hr
      rw [hone r (mem_range.1 hr)]
      by_cases hr' : r = m
      · subst hr'
        rw [if_neg]
        intro e'
        rw [← e] at e'
        have hp' := mem_range.1 hp
        apply hne
        have d1 := Nat.div_add_mod (p + r) (2 * r + 1)
        have d2 := Nat.div_add_mod (t + r) (2 * r + 1)
        rw [e'] at d1
        have q1 : (p + r) / (2 * r + 1) < 2 := Nat.div_lt_of_lt_mul (by omega)
        have q2 : (t + r) / (2 * r + 1) < 2 := Nat.div_lt_of_lt_mul (by omega)
        generalize (p + r) / (2 * r + 1) = x at *
        generalize (t + r) / (2 * r + 1) = y at *
        obtain rfl | rfl : x = 0 ∨ x = 1 := by omega
        all_goals obtain rfl | rfl : y = 0 ∨ y = 1 := by omega
        all_goals omega
      · rw [if_neg hr', mul_zero, ite_self]
  refine ⟨out, h1, key 0 (by omega) (2 * m) (by omega) ?_, fun i hi => key (i + 1) (by omega) i (by omega) ?_⟩
  · rw [show 2 * m + m = m - 1 + (2 * m + 1) by omega, Nat.add_mod_right, Nat.zero_add]
  · rw [show i + 1 + (m - 1) = i + m by omega]

example : ∃ out, convolve1 [1, 2, 3] [0, 1, 0] = .ok out ∧ val out 0 = 3 ∧ val out 1 = 1 := by
  obtain ⟨out, h1, h2, h3⟩ := C126_shift_violates [1, 2, 3] [0, 1, 0] 1 (by norm_num) rfl rfl (by
    intro r hr
    obtain rfl | rfl | rfl : r = 0 ∨ r = 1 ∨ r = 2 := by omega
    all_goals norm_num [val])
  exact ⟨out, h1, by simpa [val] using h2, by simpa [val] using h3 0 (by norm_num)⟩

/-- C126 violated: only the number of rows of the kernel is checked.  A row of three pixels, one in its middle, on an image of one pixel
gives zero. -/
theorem C126_wide_violates (x : ℝ) : convolve2d [[x]] [[0, 1, 0]] = .ok [[0]] := by
  have hv : vat [[x]] 0 = .ok [x] := rfl
  have hv' : vat [[(0 : ℝ), 1, 0]] 0 = .ok [0, 1, 0] := rfl
  have ha : complexArray [[x]] 2 2 = .ok [(x : ℂ), 0, 0, 0] := by
    unfold complexArray
    rw [hv, Res.bind_ok]
    simp [place, fillRows, fillRow, List.replicate]
  have hb : complexArray [[0, 1, 0]] 2 2 = .ok [0, 1, 0, 0, 0, 0] := by
    unfold complexArray
    rw [hv', Res.bind_ok]
    simp [place, fillRows, fillRow, List.replicate]
  unfold convolve2d
  rw [if_neg (by simp), hv, Res.bind_ok]
  have hp : padded [[x]] [x] = 2 := rfl
  simp only [hp]
  rw [ha, Res.bind_ok, hb, Res.bind_ok]
  rw [subArray_ok (F := fun i j => (val (dft2 1 2 2 (List.zipWith (· * ·) (dft2 (-1) 2 2 [(x : ℂ), 0, 0, 0])
    (dft2 (-1) 2 2 [0, 1, 0, 0, 0, 0]))) (i * 2 + j)).re / ((2 * 2 : Nat) : ℝ)) (ny := 1) (nx := 1) (n := 2) ⟨rfl, by simp⟩ (by omega)
    (by omega) (by omega) rfl (by omega)]
  simp only [List.range_one, List.map_cons, List.map_nil]
  rw [back2 (n := 2) (by norm_num) _ _ (i := (0 + (2 - 1) / 2 + (2 / 2 - 1)) % 2) (j := (0 + (2 - 1) / 2 + (2 / 2 - 1)) % 2) (by norm_num)
    (by norm_num)]
  norm_num [sum_range_succ, val]

end Verif.Convol
