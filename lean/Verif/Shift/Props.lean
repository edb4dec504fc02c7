import Verif.Shift.Lemmas
import Mathlib.Algebra.BigOperators.Ring.Finset
import Mathlib.Tactic.NormNum
/-
Test sources that are moved (src/FitScanner.cxx): C123.
-/
set_option linter.unusedSectionVars false
set_option linter.unusedSimpArgs false
set_option linter.unusedVariables false
namespace Verif.Shift
open Spec Verif.Vec

variable {D : Type} {proj : D → ℝ × ℝ} {ref dir : D} {nx ny ne : Nat} {img out : List ℝ} {kx ky : ℤ}

/-- C123: the model of a source for another direction is its image moved by the whole number of columns and
rows next to the distance of the two positions, in every energy bin. -/
theorem C123_moved_partial (hl : img.length = (ne * ny) * nx) (ho : out.length = img.length)
    (hx : Nearest ((proj dir).1 - (proj ref).1) kx) (hy : Nearest ((proj dir).2 - (proj ref).2) ky)
    (hkx : |kx| ≤ nx) (hky : ky ≤ ny) :
    ∃ r, translateMap proj (Cache.new proj ref nx ny ne img) dir out = .ok r ∧ r.length = img.length ∧
      ∀ x y e, x < nx → y < ny → e < ne → pixel nx ny r x y e = moved nx ny img kx ky x y e := by
  have e1 := nearest_unique (rnd_nearest _) hx
  have e2 := nearest_unique (rnd_nearest _) hy
  obtain ⟨r, h1, h2, h3⟩ := translateWcs_ok (c := Cache.new proj ref nx ny ne img) hl
    (dx := (proj dir).1 - (proj ref).1) (dy := (proj dir).2 - (proj ref).2) (by rw [e1]; exact hkx) (by rw [e2]; exact hky) ho
  refine ⟨r, h1, h2, fun x y e a b d => ?_⟩
  have := h3 x y e a b d
  rw [e1, e2] at this
  exact this

/-- C123: at its own position the model of the source is the model it was made from, whatever was in the
vector. -/
theorem C123_same (hl : img.length = (ne * ny) * nx) (ho : out.length = img.length) :
    translateMap proj (Cache.new proj ref nx ny ne img) ref out = .ok img := by
  have h0 : ∀ d : ℝ, Nearest (d - d) 0 := fun d => by
    refine ⟨by simp, fun k' _ => by simp⟩
  obtain ⟨r, h1, h2, h3⟩ := C123_moved_partial (dir := ref) (kx := 0) (ky := 0) hl ho (h0 _) (h0 _) (by simp) (by simp)
  rw [h1]
  congr 1
  apply ext_val h2
  intro k hk
  rw [h2, hl] at hk
  rcases Nat.eq_zero_or_pos nx with h | hnx
  · rw [h] at hk; simp at hk
  rcases Nat.eq_zero_or_pos ny with h | hny
  · rw [h] at hk; simp at hk
  have hrow : k / nx < ne * ny := Nat.div_lt_of_lt_mul (by rw [Nat.mul_comm]; exact hk)
  have := h3 (k % nx) (k / nx % ny) (k / nx / ny) (Nat.mod_lt _ hnx) (Nat.mod_lt _ hny)
    (Nat.div_lt_of_lt_mul (by rw [Nat.mul_comm]; exact hrow))
  unfold moved at this
  have m1 := Nat.mod_lt k hnx
  have m2 := Nat.mod_lt (k / nx) hny
  rw [if_pos ⟨by omega, by omega⟩, pixel_val, pixel_val] at this
  have e1 : ((((k % nx : Nat) : ℤ) - 0)).toNat = k % nx := by omega
  have e2 : ((((k / nx % ny : Nat) : ℤ) - 0)).toNat = k / nx % ny := by omega
  have e3 : k / nx / ny * ny + k / nx % ny = k / nx := Nat.div_add_mod' _ _
  rw [e1, e2, e3, Nat.div_add_mod'] at this
  exact this

/-! ### Totals -/

open Classical in
theorem sum_moved (n : Nat) (k : ℤ) (hk : |k| ≤ n) (f : Nat → ℝ) (c : ℝ) :
    ∑ x ∈ Finset.range n, (if 0 ≤ (x : ℤ) - k ∧ (x : ℤ) - k < n then f ((x : ℤ) - k).toNat else c) =
      (∑ x ∈ Finset.range n, if Stays n k x then f x else 0) + k.natAbs * c := by
  obtain ⟨h1, h2⟩ := abs_le.1 hk
  rcases Int.le_total 0 k with h0 | h0
  · obtain ⟨m, rfl⟩ : ∃ m : Nat, k = m := ⟨k.toNat, by omega⟩
    obtain ⟨p, rfl⟩ : ∃ p, n = m + p := ⟨n - m, by omega⟩
    rw [Finset.sum_range_add]
    have a : ∑ x ∈ Finset.range m, (if 0 ≤ (x : ℤ) - (m : ℤ) ∧ (x : ℤ) - m < ((m + p : Nat) : ℤ) then
        f ((x : ℤ) - m).toNat else c) = m * c := by
      rw [Finset.sum_congr rfl fun x hx => if_neg (by rw [Finset.mem_range] at hx; omega)]
      simp
    have b : ∑ x ∈ Finset.range p, (if 0 ≤ ((m + x : Nat) : ℤ) - (m : ℤ) ∧ ((m + x : Nat) : ℤ) - m < ((m + p : Nat) : ℤ) then
        f (((m + x : Nat) : ℤ) - m).toNat else c) = ∑ x ∈ Finset.range p, f x := by
      apply Finset.sum_congr rfl
      intro x hx
      rw [Finset.mem_range] at hx
      rw [if_pos (by omega)]
      congr 1
      omega
    rw [a, b, Nat.add_comm m p, Finset.sum_range_add]
    have d : ∑ x ∈ Finset.range p, (if Stays (p + m) m x then f x else 0) = ∑ x ∈ Finset.range p, f x := by
      apply Finset.sum_congr rfl
      intro x hx
      rw [Finset.mem_range] at hx
      unfold Stays
      rw [if_pos (by omega)]
    have e : ∑ x ∈ Finset.range m, (if Stays (p + m) m (p + x) then f (p + x) else 0) = 0 := by
      apply Finset.sum_eq_zero
      intro x hx
      unfold Stays
      rw [if_neg (by omega)]
    rw [d, e]
    simp
    ring
  · obtain ⟨m, rfl⟩ : ∃ m : Nat, k = -(m : ℤ) := ⟨(-k).toNat, by omega⟩
    obtain ⟨p, rfl⟩ : ∃ p, n = m + p := ⟨n - m, by omega⟩
    rw [Finset.sum_range_add (n := m) (m := p) (f := fun x => if Stays (m + p) (-(m : ℤ)) x then f x else 0)]
    have d : ∑ x ∈ Finset.range m, (if Stays (m + p) (-(m : ℤ)) x then f x else 0) = 0 := by
      apply Finset.sum_eq_zero
      intro x hx
      rw [Finset.mem_range] at hx
      unfold Stays
      rw [if_neg (by omega)]
    have e : ∑ x ∈ Finset.range p, (if Stays (m + p) (-(m : ℤ)) (m + x) then f (m + x) else 0) =
        ∑ x ∈ Finset.range p, f (m + x) := by
      apply Finset.sum_congr rfl
      intro x hx
      rw [Finset.mem_range] at hx
      unfold Stays
      rw [if_pos (by omega)]
    rw [d, e, Nat.add_comm m p, Finset.sum_range_add]
    have a : ∑ x ∈ Finset.range p, (if 0 ≤ (x : ℤ) - (-(m : ℤ)) ∧ (x : ℤ) - (-(m : ℤ)) < ((p + m : Nat) : ℤ) then
        f ((x : ℤ) - (-(m : ℤ))).toNat else c) = ∑ x ∈ Finset.range p, f (m + x) := by
      apply Finset.sum_congr rfl
      intro x hx
      rw [Finset.mem_range] at hx
      rw [if_pos (by omega)]
      congr 1
      omega
    have b : ∑ x ∈ Finset.range m, (if 0 ≤ ((p + x : Nat) : ℤ) - (-(m : ℤ)) ∧
        ((p + x : Nat) : ℤ) - (-(m : ℤ)) < ((p + m : Nat) : ℤ) then f (((p + x : Nat) : ℤ) - (-(m : ℤ))).toNat else c) = m * c := by
      rw [Finset.sum_congr rfl fun x hx => if_neg (by rw [Finset.mem_range] at hx; omega)]
      simp
    rw [a, b]
    simp

/-- C123: if nothing of the image is moved out of the map, the sum of the moved image is that of the image,
but for a thousand-millionth for each pixel that got nothing. -/
theorem C123_total_partial (hl : img.length = (ne * ny) * nx) (ho : out.length = img.length)
    (hx : Nearest ((proj dir).1 - (proj ref).1) kx) (hy : Nearest ((proj dir).2 - (proj ref).2) ky)
    (hkx : |kx| ≤ nx) (hky : |ky| ≤ ny) (e : Nat) (he : e < ne)
    (hin : ∀ x y, x < nx → y < ny → ¬ (Stays nx kx x ∧ Stays ny ky y) → pixel nx ny img x y e = 0) :
    ∃ r, translateMap proj (Cache.new proj ref nx ny ne img) dir out = .ok r ∧
      total nx ny r e = total nx ny img e + 1e-9 * (nx * ny - (nx - |kx|) * (ny - |ky|)) := by
  classical
  obtain ⟨r, h1, h2, h3⟩ := C123_moved_partial hl ho hx hy hkx (le_trans (le_abs_self _) hky)
  refine ⟨r, h1, ?_⟩
  have hrow : ∀ y, y < ny → ∑ x ∈ Finset.range nx, pixel nx ny r x y e =
      if 0 ≤ (y : ℤ) - ky ∧ (y : ℤ) - ky < ny then
        (fun y' => (∑ x ∈ Finset.range nx, if Stays nx kx x then pixel nx ny img x y' e else 0) + kx.natAbs * 1e-9)
          ((y : ℤ) - ky).toNat
      else nx * 1e-9 := by
    intro y hyl
    rw [Finset.sum_congr rfl fun x hxl => h3 x y e (Finset.mem_range.1 hxl) hyl he]
    unfold moved
    by_cases hc : 0 ≤ (y : ℤ) - ky ∧ (y : ℤ) - ky < ny
    · rw [if_pos hc]
      simp only
      rw [← sum_moved nx kx hkx (fun x => pixel nx ny img x ((y : ℤ) - ky).toNat e) 1e-9]
      apply Finset.sum_congr rfl
      intro x _
      by_cases hd : 0 ≤ (x : ℤ) - kx ∧ (x : ℤ) - kx < nx
      · rw [if_pos ⟨hd, hc⟩, if_pos hd]
      · rw [if_neg (fun h => hd h.1), if_neg hd]
    · rw [if_neg hc, Finset.sum_congr rfl fun x _ => if_neg (fun h => hc h.2)]
      simp
  unfold total
  rw [Finset.sum_congr rfl fun y hyl => hrow y (Finset.mem_range.1 hyl), sum_moved ny ky hky
    (fun y' => (∑ x ∈ Finset.range nx, if Stays nx kx x then pixel nx ny img x y' e else 0) + kx.natAbs * 1e-9) (nx * 1e-9)]
  have hs : ∀ y ∈ Finset.range ny, (if Stays ny ky y then
      (∑ x ∈ Finset.range nx, if Stays nx kx x then pixel nx ny img x y e else 0) + kx.natAbs * 1e-9 else 0) =
      (∑ x ∈ Finset.range nx, pixel nx ny img x y e) + (if Stays ny ky y then (kx.natAbs : ℝ) * 1e-9 else 0) := by
    intro y hyl
    rw [Finset.mem_range] at hyl
    by_cases hc : Stays ny ky y
    · rw [if_pos hc, if_pos hc]
      congr 1
      apply Finset.sum_congr rfl
      intro x hxl
      by_cases hd : Stays nx kx x
      · rw [if_pos hd]
      · rw [if_neg hd, hin x y (Finset.mem_range.1 hxl) hyl (fun h => hd h.1)]
    · rw [if_neg hc, if_neg hc, add_zero]
      symm
      apply Finset.sum_eq_zero
      intro x hxl
      exact hin x y (Finset.mem_range.1 hxl) hyl (fun h => hc h.2)
  rw [Finset.sum_congr rfl hs, Finset.sum_add_distrib]
  have hcnt := sum_moved ny ky hky (fun _ => (1 : ℝ)) 1
  have hones : ∑ x ∈ Finset.range ny, (if 0 ≤ (x : ℤ) - ky ∧ (x : ℤ) - ky < ny then (1 : ℝ) else 1) = ny := by simp
  rw [hones] at hcnt
  have hst : ∑ y ∈ Finset.range ny, (if Stays ny ky y then (kx.natAbs : ℝ) * 1e-9 else 0) =
      (kx.natAbs : ℝ) * 1e-9 * (ny - ky.natAbs) := by
    have : ∀ y ∈ Finset.range ny, (if Stays ny ky y then (kx.natAbs : ℝ) * 1e-9 else 0) =
        (kx.natAbs : ℝ) * 1e-9 * (if Stays ny ky y then 1 else 0) := by
      intro y _; split <;> simp
    rw [Finset.sum_congr rfl this, ← Finset.mul_sum]
    congr 1
    linarith
  rw [hst]
  have ax : ((|kx| : ℤ) : ℝ) = kx.natAbs := by rw [Int.abs_eq_natAbs]; simp
  have ay : ((|ky| : ℤ) : ℝ) = ky.natAbs := by rw [Int.abs_eq_natAbs]; simp
  rw [← ax, ← ay]
  push_cast
  ring

/-! ### Violations -/

/-- C123 (violated): a position above the map by more than its height makes the loop over the rows run beyond the
end of the image. -/
theorem C123_above_violates (hne : 0 < ne) (hy : Nearest ((proj dir).2 - (proj ref).2) ky) (hky : (ny : ℤ) < ky) :
    translateMap proj (Cache.new proj ref nx ny ne img) dir out = .ub := by
  have e2 := nearest_unique (rnd_nearest _) hy
  unfold translateMap translateWcs Cache.new
  obtain ⟨n, rfl⟩ : ∃ n, ne = n + 1 := ⟨ne - 1, by omega⟩
  simp only
  unfold loop copyLayer
  rw [e2, if_pos (by unfold stopIn; simp only; rw [if_neg (by omega)]; omega)]
  rfl

/-- C123 (violated): a position beside the map by more than its width makes the program copy a range that ends before
it begins. -/
theorem C123_beside_violates (hne : 0 < ne) (hx : Nearest ((proj dir).1 - (proj ref).1) kx)
    (hy : Nearest ((proj dir).2 - (proj ref).2) ky) (hkx : (nx : ℤ) < |kx|) (hky : |ky| < ny) :
    translateMap proj (Cache.new proj ref nx ny ne img) dir out = .ub := by
  have e1 := nearest_unique (rnd_nearest _) hx
  have e2 := nearest_unique (rnd_nearest _) hy
  obtain ⟨h1, h2⟩ := abs_lt.1 hky
  unfold translateMap translateWcs Cache.new
  obtain ⟨n, rfl⟩ : ∃ n, ne = n + 1 := ⟨ne - 1, by omega⟩
  simp only
  unfold loop copyLayer
  rw [e1, e2, if_neg (by unfold stopIn; simp only; split <;> omega)]
  obtain ⟨m, hm⟩ : ∃ m, (stopIn ny ky - startIn ky).toNat = m + 1 :=
    ⟨(stopIn ny ky - startIn ky).toNat - 1, by unfold stopIn startIn; split <;> omega⟩
  simp only
  rw [hm]
  have : ∀ (ie iy : Nat) (o : List ℝ), copyRow ⟨nx, ny, n + 1, img, proj ref⟩ kx ky ie iy o = .ub := by
    intro ie iy o
    unfold copyRow copyTo
    simp only
    rw [if_neg]
    rintro ⟨_, h, _⟩
    have : startIn kx ≤ stopIn nx kx := by linarith
    unfold startIn stopIn at this
    rcases lt_abs.1 hkx with h | h <;> split at this <;> omega
  unfold loop
  rw [this]
  rfl

/-! ### Examples -/

/-- Three columns and two rows, moved by one column. -/
example : ∃ r, translateMap (fun d : ℝ => (d, 0)) (Cache.new (fun d : ℝ => (d, 0)) 1 3 2 1 [0, 7, 0, 0, 0, 0]) (21 / 10)
    [5, 5, 5, 5, 5, 5] = .ok r ∧ r.length = 6 ∧ pixel 3 2 r 2 0 0 = 7 ∧ pixel 3 2 r 0 0 0 = 1e-9 := by
  obtain ⟨r, h1, h2, h3⟩ := C123_moved_partial (proj := fun d : ℝ => (d, 0)) (ref := 1) (dir := 21 / 10) (nx := 3) (ny := 2)
    (ne := 1) (img := [0, 7, 0, 0, 0, 0]) (out := [5, 5, 5, 5, 5, 5]) (kx := 1) (ky := 0) (by simp) (by simp)
    ⟨by norm_num [abs_le], fun k' hk' => by
      norm_num [abs_le] at hk'
      have : (0 : ℝ) < k' := by linarith [hk'.1]
      have : 0 < k' := by exact_mod_cast this
      rw [abs_of_pos this]; simp; omega⟩
    ⟨by simp, fun k' _ => by simp⟩ (by simp) (by simp)
  refine ⟨r, h1, h2, ?_, ?_⟩
  · rw [h3 2 0 0 (by simp) (by simp) (by simp)]
    unfold moved
    rw [if_pos (by simp)]
    simp [pixel]
  · rw [h3 0 0 0 (by simp) (by simp) (by simp)]
    unfold moved
    rw [if_neg (by simp)]

end Verif.Shift
