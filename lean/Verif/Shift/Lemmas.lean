import Verif.Shift.Model
import Verif.Shift.Spec
import Verif.Vec
import Mathlib.Algebra.BigOperators.Intervals
import Mathlib.Tactic.Linarith
import Mathlib.Tactic.Ring
/-
Lemmas for test sources that are moved.
-/
set_option linter.unusedSectionVars false
set_option linter.unusedSimpArgs false
set_option linter.unusedVariables false
namespace Verif.Shift
open Spec Verif.Vec

/-! ### Rounding -/

theorem nearest_unique {d : ℝ} {k k' : ℤ} (h : Nearest d k) (h' : Nearest d k') : k = k' := by
  have h1 : |k| = |k'| := le_antisymm (h.2 k' h'.1) (h'.2 k h.1)
  rcases abs_eq_abs.1 h1 with e | e
  · exact e
  · have a := abs_le.1 h.1
    have b := abs_le.1 h'.1
    have : (k : ℝ) = -(k' : ℝ) := by rw [e]; push_cast; ring
    have c1 : (k' : ℝ) - k ≤ 1 := by linarith [a.1, b.2]
    have c2 : (k : ℝ) - k' ≤ 1 := by linarith [a.2, b.1]
    have d1 : k' - k ≤ 1 := by exact_mod_cast c1
    have d2 : k - k' ≤ 1 := by exact_mod_cast c2
    omega

theorem rnd_nearest (d : ℝ) : Nearest d (rnd d) := by
  have f1 := Int.floor_le d
  have f2 := Int.lt_floor_add_one d
  have c1 := Int.le_ceil d
  have c2 := Int.ceil_lt_add_one d
  have fc : ⌈d⌉ ≤ ⌊d⌋ + 1 := Int.ceil_le_floor_add_one d
  unfold rnd
  split
  · rename_i h0
    have p0 : 0 ≤ ⌊d⌋ := Int.floor_nonneg.2 h0
    split
    · rename_i h1
      have e : (⌈d⌉ : ℝ) ≤ ⌊d⌋ + 1 := by exact_mod_cast fc
      refine ⟨abs_le.2 ⟨by linarith, by linarith⟩, fun k' hk' => ?_⟩
      have a := abs_le.1 hk'
      have : (⌊d⌋ : ℝ) < k' := by linarith [a.1]
      have : ⌊d⌋ < k' := by exact_mod_cast this
      rw [abs_of_nonneg (by linarith [Int.floor_le_ceil d]), abs_of_nonneg (by omega)]
      omega
    · rename_i h1
      push Not at h1
      refine ⟨abs_le.2 ⟨by linarith, by linarith⟩, fun k' hk' => ?_⟩
      have a := abs_le.1 hk'
      have : (⌊d⌋ : ℝ) < k' + 1 := by linarith [a.1]
      have : ⌊d⌋ < k' + 1 := by exact_mod_cast this
      rw [abs_of_nonneg p0, abs_of_nonneg (by omega)]
      omega
  · rename_i h0
    push Not at h0
    have p0 : ⌈d⌉ ≤ 0 := Int.ceil_le.2 (by push_cast; exact h0.le)
    split
    · rename_i h1
      have e : (⌈d⌉ : ℝ) ≤ ⌊d⌋ + 1 := by exact_mod_cast fc
      refine ⟨abs_le.2 ⟨by linarith, by linarith⟩, fun k' hk' => ?_⟩
      have a := abs_le.1 hk'
      have : (k' : ℝ) < ⌈d⌉ := by linarith [a.2]
      have : k' < ⌈d⌉ := by exact_mod_cast this
      rw [abs_of_nonpos (by linarith [Int.floor_le_ceil d]), abs_of_nonpos (by omega)]
      omega
    · rename_i h1
      push Not at h1
      refine ⟨abs_le.2 ⟨by linarith, by linarith⟩, fun k' hk' => ?_⟩
      have a := abs_le.1 hk'
      have : (k' : ℝ) < ⌈d⌉ + 1 := by linarith [a.2]
      have : k' < ⌈d⌉ + 1 := by exact_mod_cast this
      rw [abs_of_nonpos p0, abs_of_nonpos (by omega)]
      omega

/-! ### Copies -/

theorem copyTo_val {src dst : List ℝ} {a w o : Nat} (h1 : a + w ≤ src.length) (h2 : o + w ≤ dst.length) :
    ∃ r, copyTo src a ((a : ℤ) + w) o dst = .ok r ∧ r.length = dst.length ∧
      ∀ j, val r j = if o ≤ j ∧ j < o + w then val src (a + (j - o)) else val dst j := by
  refine ⟨dst.take o ++ (src.drop a).take w ++ dst.drop (o + w), ?_, ?_, fun j => ?_⟩
  · unfold copyTo
    rw [if_pos ⟨by omega, by omega, by omega, by omega, by omega⟩]
    have e1 : ((a : ℤ) + w - a).toNat = w := by omega
    have e2 : ((o : ℤ) + ((a : ℤ) + w - a)).toNat = o + w := by omega
    rw [e1, e2, Int.toNat_natCast, Int.toNat_natCast]
  · simp; omega
  · unfold val
    by_cases hj : o ≤ j ∧ j < o + w
    · rw [if_pos hj, List.append_assoc, List.getElem?_append_right (by simp; omega),
        List.getElem?_append_left (by simp; omega), List.getElem?_take_of_lt (by simp; omega), List.getElem?_drop]
      rw [List.length_take, Nat.min_eq_left (by omega)]
    · rw [if_neg hj]
      by_cases hj' : j < o
      · rw [List.append_assoc, List.getElem?_append_left (by simp; omega), List.getElem?_take_of_lt hj']
      · rw [List.getElem?_append_right (by simp; omega), List.getElem?_drop]
        congr 2
        simp
        omega

theorem pixel_val (nx ny : Nat) (l : List ℝ) (x y e : Nat) : pixel nx ny l x y e = val l ((e * ny + y) * nx + x) := rfl

theorem row_bound {nx rows r k : Nat} (hr : r < rows) (hk : k ≤ nx) : r * nx + k ≤ rows * nx := by
  have : (r + 1) * nx ≤ rows * nx := Nat.mul_le_mul_right _ hr
  rw [Nat.add_mul, Nat.one_mul] at this
  omega

variable {c : Cache} {kx ky : ℤ}

/-- One row. -/
theorem copyRow_ok (hl : c.ref.length = (c.ne * c.ny) * c.nx) (hkx : |kx| ≤ c.nx) {ie iy iy' : Nat} (hie : ie < c.ne)
    (hiy : iy < c.ny) (hiy' : iy' < c.ny) (heq : (iy' : ℤ) = iy + ky) {out : List ℝ} (ho : out.length = c.ref.length) :
    ∃ r, copyRow c kx ky ie iy out = .ok r ∧ r.length = c.ref.length ∧
      ∀ x y e, x < c.nx → y < c.ny → pixel c.nx c.ny r x y e =
        if (0 ≤ (x : ℤ) - kx ∧ (x : ℤ) - kx < c.nx) ∧ y = iy' ∧ e = ie then
          pixel c.nx c.ny c.ref ((x : ℤ) - kx).toNat iy ie
        else pixel c.nx c.ny out x y e := by
  obtain ⟨hk1, hk2⟩ := abs_le.1 hkx
  have hrow : ie * c.ny + iy < c.ne * c.ny := idx_lt hiy hie
  have hrow' : ie * c.ny + iy' < c.ne * c.ny := idx_lt hiy' hie
  obtain ⟨s, hs⟩ : ∃ s : Nat, startIn kx = s := ⟨(startIn kx).toNat, by unfold startIn; split <;> omega⟩
  obtain ⟨w, hw⟩ : ∃ w : Nat, stopIn c.nx kx = (s : ℤ) + w :=
    ⟨(stopIn c.nx kx - s).toNat, by unfold startIn at hs; unfold stopIn; split at hs <;> split <;> omega⟩
  obtain ⟨t, ht⟩ : ∃ t : Nat, startOut kx = t :=
    ⟨(startOut kx).toNat, by unfold startOut startIn; split <;> omega⟩
  have hsw : s + w ≤ c.nx := by
    unfold startIn at hs; unfold stopIn at hw; split at hs <;> split at hw <;> omega
  have htw : t + w ≤ c.nx := by
    unfold startOut at ht; unfold startIn at hs ht; unfold stopIn at hw; split at hs <;> split at hw <;> omega
  have hst : (t : ℤ) = s + kx := by unfold startOut at ht; omega
  have hx : ∀ x : Nat, x < c.nx → ((0 ≤ (x : ℤ) - kx ∧ (x : ℤ) - kx < c.nx) ↔ (t ≤ x ∧ x < t + w)) := by
    intro x hx
    unfold startIn at hs; unfold stopIn at hw
    split at hs <;> split at hw <;> constructor <;> intro h <;> omega
  have e1 : copyRow c kx ky ie iy out =
      copyTo c.ref (((ie * c.ny + iy) * c.nx + s : Nat) : ℤ) ((((ie * c.ny + iy) * c.nx + s : Nat) : ℤ) + w)
        (((ie * c.ny + iy') * c.nx + t : Nat) : ℤ) out := by
    unfold copyRow startOut
    simp only
    have a1 : (ie : ℤ) * (c.nx * c.ny) + (startIn ky * c.nx + ((iy : ℤ) - startIn ky) * c.nx) + startIn kx =
        (((ie * c.ny + iy) * c.nx + s : Nat) : ℤ) := by
      rw [hs]; push_cast; ring
    have a2 : (ie : ℤ) * (c.nx * c.ny) + (startIn ky * c.nx + ((iy : ℤ) - startIn ky) * c.nx) + stopIn c.nx kx =
        (((ie * c.ny + iy) * c.nx + s : Nat) : ℤ) + w := by
      rw [hw]; push_cast; ring
    have a3 : (ie : ℤ) * (c.nx * c.ny) + ((startIn ky + ky) * c.nx + ((iy : ℤ) - startIn ky) * c.nx) + (startIn kx + kx) =
        (((ie * c.ny + iy') * c.nx + t : Nat) : ℤ) := by
      rw [hs, ← hst]; push_cast; rw [heq]; ring
    rw [a1, a2, a3]
  obtain ⟨r, h1, h2, h3⟩ := copyTo_val (src := c.ref) (dst := out) (a := (ie * c.ny + iy) * c.nx + s) (w := w)
    (o := (ie * c.ny + iy') * c.nx + t)
    (by have := row_bound hrow hsw; rw [hl]; omega)
    (by have := row_bound hrow' htw; rw [ho, hl]; omega)
  refine ⟨r, by rw [e1, h1], by rw [h2, ho], fun x y e hxl hy => ?_⟩
  rw [pixel_val, h3]
  have hiff : ((ie * c.ny + iy') * c.nx + t ≤ (e * c.ny + y) * c.nx + x ∧
      (e * c.ny + y) * c.nx + x < (ie * c.ny + iy') * c.nx + t + w) ↔
      ((0 ≤ (x : ℤ) - kx ∧ (x : ℤ) - kx < c.nx) ∧ y = iy' ∧ e = ie) := by
    rw [hx x hxl]
    constructor
    · rintro ⟨g1, g2⟩
      obtain ⟨z, hz⟩ : ∃ z, (e * c.ny + y) * c.nx + x = (ie * c.ny + iy') * c.nx + z :=
        ⟨(e * c.ny + y) * c.nx + x - (ie * c.ny + iy') * c.nx, by omega⟩
      obtain ⟨q1, q2⟩ := idx_inj hxl (by omega) hz
      obtain ⟨q3, q4⟩ := idx_inj hy hiy' q1
      exact ⟨by omega, q4, q3⟩
    · rintro ⟨g1, rfl, rfl⟩
      omega
  by_cases hc : (0 ≤ (x : ℤ) - kx ∧ (x : ℤ) - kx < c.nx) ∧ y = iy' ∧ e = ie
  · rw [if_pos (hiff.2 hc), if_pos hc, pixel_val]
    obtain ⟨g1, rfl, rfl⟩ := hc
    congr 1
    omega
  · rw [if_neg (fun h => hc (hiff.1 h)), if_neg hc, pixel_val]

/-- One energy bin. -/
theorem copyLayer_ok (hl : c.ref.length = (c.ne * c.ny) * c.nx) (hkx : |kx| ≤ c.nx) (hky : ky ≤ c.ny) {ie : Nat} (hie : ie < c.ne)
    {out : List ℝ} (ho : out.length = c.ref.length) :
    ∃ r, copyLayer c kx ky ie out = .ok r ∧ r.length = c.ref.length ∧
      ∀ x y e, x < c.nx → y < c.ny → pixel c.nx c.ny r x y e =
        if (0 ≤ (x : ℤ) - kx ∧ (x : ℤ) - kx < c.nx) ∧ (0 ≤ (y : ℤ) - ky ∧ (y : ℤ) - ky < c.ny) ∧ e = ie then
          pixel c.nx c.ny c.ref ((x : ℤ) - kx).toNat ((y : ℤ) - ky).toNat ie
        else pixel c.nx c.ny out x y e := by
  have hstop : ¬ stopIn c.ny ky < 0 := by unfold stopIn; split <;> omega
  unfold copyLayer
  rw [if_neg hstop]
  obtain ⟨r, h1, h2, h3⟩ := loop_inv (body := copyRow c kx ky ie) (lo := (startIn ky).toNat)
    (n := (stopIn c.ny ky - startIn ky).toNat) (s := out)
    (fun i st => st.length = c.ref.length ∧ ∀ x y e, x < c.nx → y < c.ny → pixel c.nx c.ny st x y e =
        if (0 ≤ (x : ℤ) - kx ∧ (x : ℤ) - kx < c.nx) ∧ (startIn ky ≤ (y : ℤ) - ky ∧ (y : ℤ) - ky < i) ∧ e = ie then
          pixel c.nx c.ny c.ref ((x : ℤ) - kx).toNat ((y : ℤ) - ky).toNat ie
        else pixel c.nx c.ny out x y e)
    ⟨ho, fun x y e _ _ => by rw [if_neg]; rintro ⟨_, h, _⟩; unfold startIn at h; split at h <;> omega⟩
    (fun i st hi hi' hP => by
      have hin : i < c.ny ∧ startIn ky ≤ i ∧ 0 ≤ (i : ℤ) + ky ∧ (i : ℤ) + ky < c.ny := by
        unfold startIn at hi hi' ⊢
        unfold stopIn at hi'
        split at hi <;> simp_all <;> omega
      obtain ⟨r, g1, g2, g3⟩ := copyRow_ok hl hkx hie hin.1 (iy' := ((i : ℤ) + ky).toNat) (ky := ky)
        (by have := hin.2.2; omega) (by have := hin.2.2; omega) hP.1
      refine ⟨r, g1, g2, fun x y e hx hy => ?_⟩
      rw [g3 x y e hx hy]
      by_cases hc : (0 ≤ (x : ℤ) - kx ∧ (x : ℤ) - kx < c.nx) ∧ y = ((i : ℤ) + ky).toNat ∧ e = ie
      · rw [if_pos hc, if_pos ⟨hc.1, by have := hc.2.1; have := hin.2; omega, hc.2.2⟩]
        congr 1
        have := hc.2.1; have := hin.2; omega
      · rw [if_neg hc, hP.2 x y e hx hy]
        have : ((0 ≤ (x : ℤ) - kx ∧ (x : ℤ) - kx < c.nx) ∧ (startIn ky ≤ (y : ℤ) - ky ∧ (y : ℤ) - ky < i) ∧ e = ie) ↔
            ((0 ≤ (x : ℤ) - kx ∧ (x : ℤ) - kx < c.nx) ∧ (startIn ky ≤ (y : ℤ) - ky ∧ (y : ℤ) - ky < (i + 1 : Nat)) ∧ e = ie) := by
          constructor
          · rintro ⟨a, b, d⟩; exact ⟨a, by omega, d⟩
          · rintro ⟨a, b, d⟩
            refine ⟨a, ?_, d⟩
            by_contra hb
            exact hc ⟨a, by omega, d⟩
        simp only [this])
  refine ⟨r, h1, h2, fun x y e hx hy => ?_⟩
  rw [h3 x y e hx hy]
  have : ((0 ≤ (x : ℤ) - kx ∧ (x : ℤ) - kx < c.nx) ∧ (startIn ky ≤ (y : ℤ) - ky ∧
        (y : ℤ) - ky < ((startIn ky).toNat + (stopIn c.ny ky - startIn ky).toNat : Nat)) ∧ e = ie) ↔
      ((0 ≤ (x : ℤ) - kx ∧ (x : ℤ) - kx < c.nx) ∧ (0 ≤ (y : ℤ) - ky ∧ (y : ℤ) - ky < c.ny) ∧ e = ie) := by
    have : (startIn ky ≤ (y : ℤ) - ky ∧
        (y : ℤ) - ky < ((startIn ky).toNat + (stopIn c.ny ky - startIn ky).toNat : Nat)) ↔
        (0 ≤ (y : ℤ) - ky ∧ (y : ℤ) - ky < c.ny) := by
      unfold startIn stopIn
      split <;> constructor <;> intro h <;> omega
    rw [this]
  simp only [this]

/-- All energy bins. -/
theorem translateWcs_ok (hl : c.ref.length = (c.ne * c.ny) * c.nx) {dx dy : ℝ} (hkx : |rnd dx| ≤ c.nx) (hky : rnd dy ≤ c.ny)
    {out : List ℝ} (ho : out.length = c.ref.length) :
    ∃ r, translateWcs c dx dy out = .ok r ∧ r.length = c.ref.length ∧
      ∀ x y e, x < c.nx → y < c.ny → e < c.ne → pixel c.nx c.ny r x y e = moved c.nx c.ny c.ref (rnd dx) (rnd dy) x y e := by
  unfold translateWcs
  obtain ⟨r, h1, h2, h3⟩ := loop_inv (body := copyLayer c (rnd dx) (rnd dy)) (lo := 0) (n := c.ne)
    (s := out.map fun _ => (1e-9 : ℝ))
    (fun i st => st.length = c.ref.length ∧ ∀ x y e, x < c.nx → y < c.ny → e < c.ne → pixel c.nx c.ny st x y e =
        if e < i then moved c.nx c.ny c.ref (rnd dx) (rnd dy) x y e else 1e-9)
    ⟨by simp [ho], fun x y e hx hy he => by
      rw [if_neg (by omega)]
      unfold pixel
      have : (e * c.ny + y) * c.nx + x < out.length := by
        rw [ho, hl]; exact idx_lt hx (idx_lt hy he)
      rw [List.getElem?_map, List.getElem?_eq_getElem this]
      rfl⟩
    (fun i st _ hi hP => by
      obtain ⟨r, g1, g2, g3⟩ := copyLayer_ok hl hkx hky (ie := i) (by omega) hP.1
      refine ⟨r, g1, g2, fun x y e hx hy he => ?_⟩
      rw [g3 x y e hx hy]
      by_cases hei : e = i
      · subst hei
        rw [if_pos (show e < e + 1 by omega)]
        unfold moved
        by_cases hc : (0 ≤ (x : ℤ) - rnd dx ∧ (x : ℤ) - rnd dx < c.nx) ∧ (0 ≤ (y : ℤ) - rnd dy ∧ (y : ℤ) - rnd dy < c.ny)
        · rw [if_pos ⟨hc.1, hc.2, rfl⟩, if_pos hc]
        · rw [if_neg (fun h => hc ⟨h.1, h.2.1⟩), if_neg hc, hP.2 x y e hx hy he, if_neg (by omega)]
      · rw [if_neg (fun h => hei h.2.2), hP.2 x y e hx hy he]
        by_cases h : e < i
        · rw [if_pos h, if_pos (by omega)]
        · rw [if_neg h, if_neg (by omega)])
  refine ⟨r, h1, h2, fun x y e hx hy he => ?_⟩
  rw [h3 x y e hx hy he, if_pos (by omega)]

end Verif.Shift
