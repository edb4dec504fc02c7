import Verif.Wcs.Lemmas
import Mathlib.Topology.Algebra.Monoid
import Mathlib.Topology.Algebra.Order.Field
/-
C65: the value of a map at a position.
-/
set_option linter.unusedSectionVars false
set_option linter.unusedSimpArgs false
set_option linter.unusedVariables false
namespace Verif.Wcs
open Verif.Wcs.Spec

/-- The image of a map has the size of its axes, with a plane for each energy. -/
def Map.Tidy (m : Map) : Prop := Rect m.image m.energies.length m.n1 m.n2

/-! ### The pixel of a position -/

theorem pixelValue_eq {m : Map} (h : m.Tidy) {k : Nat} (hk : k < m.energies.length) {x y : ℝ} {i j : Nat}
    (hp : InPixel x y i j) (hi : 1 ≤ i ∧ i ≤ m.n1) (hj : 1 ≤ j ∧ j ≤ m.n2) :
    m.pixelValue x y k = .ok (pixel m.image k i j) := by
  have ci : (1 : ℝ) ≤ i := by exact_mod_cast hi.1
  have cj : (1 : ℝ) ≤ j := by exact_mod_cast hj.1
  have ex := myRound_eq hp.1 hp.2.1 (by linarith [hp.1])
  have ey := myRound_eq hp.2.2.1 hp.2.2.2 (by linarith [hp.2.2.1])
  unfold Map.pixelValue
  rw [checkIndex_ok hk, Res.bind_ok, ex, ey]
  simp only []
  have hif : ((!m.periodic && (decide ((i : ℤ) - 1 < 0) || decide ((m.n1 : ℤ) ≤ (i : ℤ) - 1))) ||
      decide ((j : ℤ) - 1 < 0) || decide ((m.n2 : ℤ) ≤ (j : ℤ) - 1)) = false := by
    have a1 : ¬ ((i : ℤ) - 1 < 0) := by omega
    have a2 : ¬ ((m.n1 : ℤ) ≤ (i : ℤ) - 1) := by omega
    have a3 : ¬ ((j : ℤ) - 1 < 0) := by omega
    have a4 : ¬ ((m.n2 : ℤ) ≤ (j : ℤ) - 1) := by omega
    simp [a1, a2, a3, a4]
  rw [hif, if_neg (by simp), if_neg (by omega)]
  have e1 : (i : ℤ) - 1 = ((i - 1 : Nat) : ℤ) := by omega
  have e2 : (j : ℤ) - 1 = ((j - 1 : Nat) : ℤ) := by omega
  rw [e1, e2, at_eq h hk (by omega) (by omega), Nat.sub_add_cancel hi.1, Nat.sub_add_cancel hj.1]

/-- Outside of a map that does not close in itself the value is zero, and so it is where there is no projection. -/
theorem C65_outside (m : Map) (h : m.Tidy) (k : Nat) (hk : k < m.energies.length) :
    m.plane none k = .ok 0 ∧
    ∀ x y : ℝ, m.periodic = false → (x < 0.5 ∨ (m.n1 : ℝ) + 0.5 < x ∨ y < 0.5 ∨ (m.n2 : ℝ) + 0.5 < y) →
      m.plane (some (x, y)) k = .ok 0 := by
  constructor
  · unfold Map.plane
    rw [checkIndex_ok hk, Res.bind_ok]
  · intro x y hp ho
    unfold Map.plane
    rw [checkIndex_ok hk, Res.bind_ok]
    simp only [hp]
    rw [if_pos]
    rcases ho with h1 | h1 | h1 | h1 <;> simp [h1]

/-- Reduction of `plane` inside a map that is not periodic. -/
theorem plane_in {m : Map} {k : Nat} (hk : k < m.energies.length) (hp : m.periodic = false) {x y : ℝ} (hx1 : 0.5 ≤ x)
    (hx2 : x ≤ (m.n1 : ℝ) + 0.5) (hy1 : 0.5 ≤ y) (hy2 : y ≤ (m.n2 : ℝ) + 0.5) :
    m.plane (some (x, y)) k =
      if m.interp = true ∧ 1 ≤ trunc x ∧ trunc x < m.n1 ∧ 1 ≤ trunc y ∧ trunc y < m.n2 then m.bilinear x y k
      else m.pixelValue x y k := by
  unfold Map.plane
  rw [checkIndex_ok hk, Res.bind_ok]
  simp only [hp, Bool.not_false, Bool.true_and, Bool.false_eq_true, if_false]
  rw [if_neg (by simp [not_lt.2 hx1, not_lt.2 hx2, not_lt.2 hy1, not_lt.2 hy2])]
  cases hI : m.interp
  · simp
  · simp only [Bool.not_true, Bool.false_eq_true, if_false, true_and, Bool.or_eq_true, decide_eq_true_eq]
    by_cases h1 : trunc x < 1 ∨ (m.n1 : ℤ) ≤ trunc x
    · rw [if_pos h1, if_neg (by omega)]
    · rw [if_neg h1]
      by_cases h2 : trunc y < 1 ∨ (m.n2 : ℤ) ≤ trunc y
      · rw [if_pos h2, if_neg (by omega)]
      · rw [if_neg h2, if_pos (by omega)]

theorem trunc_bounds {x : ℝ} (h0 : 0 ≤ x) (n : Nat) : (1 ≤ trunc x ↔ 1 ≤ x) ∧ (trunc x < n ↔ x < n) := by
  rw [trunc_nonneg h0]
  constructor
  · rw [Int.le_floor]; simp
  · rw [Int.floor_lt]; simp

/-- Without interpolation, and with it within half a pixel of the edges, the value is that of
the pixel in which the position lies. -/
theorem C65_nearest_partial (m : Map) (h : m.Tidy) (hp : m.periodic = false) (k : Nat) (hk : k < m.energies.length)
    (x y : ℝ) (i j : Nat) (hi : 1 ≤ i ∧ i ≤ m.n1) (hj : 1 ≤ j ∧ j ≤ m.n2) (hin : InPixel x y i j)
    (hc : m.interp = false ∨ x < 1 ∨ (m.n1 : ℝ) ≤ x ∨ y < 1 ∨ (m.n2 : ℝ) ≤ y) :
    m.plane (some (x, y)) k = .ok (pixel m.image k i j) := by
  have ci : (1 : ℝ) ≤ i := by exact_mod_cast hi.1
  have cj : (1 : ℝ) ≤ j := by exact_mod_cast hj.1
  have ci' : (i : ℝ) ≤ m.n1 := by exact_mod_cast hi.2
  have cj' : (j : ℝ) ≤ m.n2 := by exact_mod_cast hj.2
  obtain ⟨h1, h2, h3, h4⟩ := hin
  rw [plane_in hk hp (by linarith) (by linarith) (by linarith) (by linarith), if_neg,
    pixelValue_eq h hk ⟨h1, h2, h3, h4⟩ hi hj]
  have bx := trunc_bounds (x := x) (by linarith) m.n1
  have by' := trunc_bounds (x := y) (by linarith) m.n2
  rintro ⟨a0, a1, a2, a3, a4⟩
  rw [bx.1] at a1
  rw [bx.2] at a2
  rw [by'.1] at a3
  rw [by'.2] at a4
  rcases hc with hc | hc | hc | hc | hc
  · rw [hc] at a0; cases a0
  all_goals linarith

/-- The four neighbours, in terms of tents. -/
theorem bilinear_eq {m : Map} (h : m.Tidy) {k : Nat} (hk : k < m.energies.length) {x y : ℝ} (hx1 : 1 ≤ x)
    (hx2 : x < m.n1) (hy1 : 1 ≤ y) (hy2 : y < m.n2) :
    m.bilinear x y k = .ok (tents m.n1 m.n2 (pixel m.image k) x y) := by
  have hx0 : 0 ≤ x := by linarith
  have hy0 : 0 ≤ y := by linarith
  have px : 1 ≤ ⌊x⌋₊ := Nat.le_floor (by exact_mod_cast hx1)
  have lx : ⌊x⌋₊ < m.n1 := (Nat.floor_lt hx0).2 hx2
  have py : 1 ≤ ⌊y⌋₊ := Nat.le_floor (by exact_mod_cast hy1)
  have ly : ⌊y⌋₊ < m.n2 := (Nat.floor_lt hy0).2 hy2
  unfold Map.bilinear
  simp only [trunc_nonneg hx0, trunc_nonneg hy0, floor_cast hx0, floor_cast hy0]
  have hne : decide (((⌊x⌋₊ : Nat) : ℤ) = 0) = false := by
    rw [decide_eq_false_iff_not]; omega
  have e1 : ((⌊x⌋₊ : Nat) : ℤ) - 1 = ((⌊x⌋₊ - 1 : Nat) : ℤ) := by omega
  have e2 : ((⌊y⌋₊ : Nat) : ℤ) - 1 = ((⌊y⌋₊ - 1 : Nat) : ℤ) := by omega
  simp only [hne, Bool.and_false, Bool.false_eq_true, if_false, e1, e2]
  rw [at_eq h hk (by omega) (by omega), Res.bind_ok, at_eq h hk (by omega) ly, Res.bind_ok,
    at_eq h hk lx (by omega), Res.bind_ok, at_eq h hk lx ly, Res.bind_ok]
  congr 1
  unfold tents
  rw [swap_tents m.n1 m.n2 (fun i => tent (x - (i + 1))) (fun j => tent (y - (j + 1)))
    (fun i j => pixel m.image k (i + 1) (j + 1))]
  rw [sum_tent m.n2 (fun j => ∑ i ∈ Finset.range m.n1, tent (x - (i + 1)) * pixel m.image k (i + 1) (j + 1)) hy1 hy2]
  rw [sum_tent m.n1 (fun i => pixel m.image k (i + 1) (⌊y⌋₊ - 1 + 1)) hx1 hx2,
    sum_tent m.n1 (fun i => pixel m.image k (i + 1) (⌊y⌋₊ + 1)) hx1 hx2]
  push_cast
  ring

/-- With interpolation, between the centres of the pixels at the edges, every pixel counts with
tents in both coordinates. -/
theorem C65_interior (m : Map) (h : m.Tidy) (hp : m.periodic = false) (hI : m.interp = true) (k : Nat)
    (hk : k < m.energies.length) (x y : ℝ) (hx1 : 1 ≤ x) (hx2 : x < m.n1) (hy1 : 1 ≤ y) (hy2 : y < m.n2) :
    m.plane (some (x, y)) k = .ok (tents m.n1 m.n2 (pixel m.image k) x y) := by
  rw [plane_in hk hp (by linarith) (by linarith) (by linarith) (by linarith), if_pos, bilinear_eq h hk hx1 hx2 hy1 hy2]
  have bx := trunc_bounds (x := x) (by linarith) m.n1
  have by' := trunc_bounds (x := y) (by linarith) m.n2
  exact ⟨hI, bx.1.2 hx1, bx.2.2 hx2, by'.1.2 hy1, by'.2.2 hy2⟩

/-- There the value depends continuously on the position. -/
theorem C65_continuous (m : Map) (h : m.Tidy) (hp : m.periodic = false) (hI : m.interp = true) (k : Nat)
    (hk : k < m.energies.length) :
    ∃ f : ℝ × ℝ → ℝ, Continuous f ∧ ∀ x y : ℝ, 1 ≤ x → x < m.n1 → 1 ≤ y → y < m.n2 →
      m.plane (some (x, y)) k = .ok (f (x, y)) := by
  refine ⟨fun q => tents m.n1 m.n2 (pixel m.image k) q.1 q.2, ?_, fun x y a b c d =>
    C65_interior m h hp hI k hk x y a b c d⟩
  unfold tents tent
  fun_prop

theorem tents_centre (n1 n2 : Nat) (p : Nat → Nat → ℝ) {i j : Nat} (hi : 1 ≤ i ∧ i < n1) (hj : 1 ≤ j ∧ j < n2) :
    tents n1 n2 p i j = p i j := by
  have ci : (1 : ℝ) ≤ i := by exact_mod_cast hi.1
  have cj : (1 : ℝ) ≤ j := by exact_mod_cast hj.1
  unfold tents
  rw [swap_tents n1 n2 (fun a => tent ((i : ℝ) - (a + 1))) (fun b => tent ((j : ℝ) - (b + 1))) (fun a b => p (a + 1) (b + 1)),
    sum_tent n2 (fun b => ∑ a ∈ Finset.range n1, tent ((i : ℝ) - (a + 1)) * p (a + 1) (b + 1)) cj (by exact_mod_cast hj.2),
    sum_tent n1 (fun a => p (a + 1) (⌊(j : ℝ)⌋₊ - 1 + 1)) ci (by exact_mod_cast hi.2), Nat.floor_natCast, Nat.floor_natCast,
    Nat.sub_add_cancel hi.1, Nat.sub_add_cancel hj.1]
  ring

/-- At the centre of every pixel the map has the value of the pixel. -/
theorem C65_centre_partial (m : Map) (h : m.Tidy) (hp : m.periodic = false) (k : Nat) (hk : k < m.energies.length)
    (i j : Nat) (hi : 1 ≤ i ∧ i ≤ m.n1) (hj : 1 ≤ j ∧ j ≤ m.n2) :
    m.plane (some ((i : ℝ), (j : ℝ))) k = .ok (pixel m.image k i j) := by
  have ci : (1 : ℝ) ≤ i := by exact_mod_cast hi.1
  have cj : (1 : ℝ) ≤ j := by exact_mod_cast hj.1
  by_cases hc : m.interp = true ∧ i < m.n1 ∧ j < m.n2
  · rw [C65_interior m h hp hc.1 k hk _ _ ci (by exact_mod_cast hc.2.1) cj (by exact_mod_cast hc.2.2),
      tents_centre m.n1 m.n2 _ ⟨hi.1, hc.2.1⟩ ⟨hj.1, hc.2.2⟩]
  · refine C65_nearest_partial m h hp k hk _ _ i j hi hj ⟨by linarith, by linarith, by linarith, by linarith⟩ ?_
    cases hI : m.interp
    · exact Or.inl rfl
    · have : ¬ (i < m.n1 ∧ j < m.n2) := fun a => hc ⟨hI, a⟩
      by_cases h1 : i < m.n1
      · have : m.n2 ≤ j := by
          by_contra hj2
          exact this ⟨h1, by omega⟩
        exact Or.inr (Or.inr (Or.inr (Or.inr (by exact_mod_cast this))))
      · exact Or.inr (Or.inr (Or.inl (by exact_mod_cast (by omega : m.n1 ≤ i))))

/-- A weighted mean lies between the bounds of its values. -/
theorem tents_bounds {n1 n2 : Nat} {p : Nat → Nat → ℝ} {lo hi : ℝ}
    (hb : ∀ i j, 1 ≤ i → i ≤ n1 → 1 ≤ j → j ≤ n2 → lo ≤ p i j ∧ p i j ≤ hi) {w v : Nat → ℝ} (hw : ∀ i, 0 ≤ w i)
    (hv : ∀ j, 0 ≤ v j) (sw : ∑ i ∈ Finset.range n1, w i = 1) (sv : ∑ j ∈ Finset.range n2, v j = 1) :
    lo ≤ ∑ j ∈ Finset.range n2, ∑ i ∈ Finset.range n1, w i * v j * p (i + 1) (j + 1) ∧
    ∑ j ∈ Finset.range n2, ∑ i ∈ Finset.range n1, w i * v j * p (i + 1) (j + 1) ≤ hi := by
  have key : ∀ c : ℝ, ∑ j ∈ Finset.range n2, ∑ i ∈ Finset.range n1, w i * v j * c = c := by
    intro c
    rw [swap_tents n1 n2 w v (fun _ _ => c)]
    rw [← Finset.sum_mul, ← Finset.sum_mul, sw, sv]
    ring
  constructor
  · calc lo = ∑ j ∈ Finset.range n2, ∑ i ∈ Finset.range n1, w i * v j * lo := (key lo).symm
      _ ≤ _ := Finset.sum_le_sum fun j hj => Finset.sum_le_sum fun i hi => by
        rw [Finset.mem_range] at hi hj
        exact mul_le_mul_of_nonneg_left (hb _ _ (by omega) hi (by omega) hj).1 (mul_nonneg (hw i) (hv j))
  · calc _ ≤ ∑ j ∈ Finset.range n2, ∑ i ∈ Finset.range n1, w i * v j * hi := Finset.sum_le_sum fun j hj =>
        Finset.sum_le_sum fun i hi => by
          rw [Finset.mem_range] at hi hj
          exact mul_le_mul_of_nonneg_left (hb _ _ (by omega) hi (by omega) hj).2 (mul_nonneg (hw i) (hv j))
      _ = hi := key hi

/-- A position inside the map lies in a pixel, except on the far edges. -/
theorem pixel_of {x : ℝ} {n : Nat} (h1 : 0.5 ≤ x) (h2 : x < (n : ℝ) + 0.5) :
    ∃ i : Nat, (1 ≤ i ∧ i ≤ n) ∧ (i : ℝ) - 1 / 2 ≤ x ∧ x < i + 1 / 2 := by
  refine ⟨⌊x + 1 / 2⌋₊, ⟨Nat.le_floor (by norm_num; linarith), ?_⟩, ?_, ?_⟩
  · have := (Nat.floor_lt (a := x + 1 / 2) (n := n + 1) (by linarith)).2 (by push_cast; linarith)
    omega
  · have := Nat.floor_le (a := x + 1 / 2) (by linarith)
    linarith
  · have := Nat.lt_floor_add_one (x + 1 / 2)
    linarith

/-- On the far edges, which the program takes as inside, the value is zero whatever the
pixels. -/
theorem C65_edge_violates (m : Map) (hp : m.periodic = false) (k : Nat) (hk : k < m.energies.length) (x y : ℝ)
    (hx1 : 0.5 ≤ x) (hx2 : x ≤ (m.n1 : ℝ) + 0.5) (hy1 : 0.5 ≤ y) (hy2 : y ≤ (m.n2 : ℝ) + 0.5)
    (he : x = (m.n1 : ℝ) + 0.5 ∨ y = (m.n2 : ℝ) + 0.5) :
    m.inside (some (x, y)) = .ok true ∧ m.plane (some (x, y)) k = .ok 0 := by
  constructor
  · unfold Map.inside
    simp only [hp, not_lt.2 hx1, not_lt.2 hx2, not_lt.2 hy1, not_lt.2 hy2, decide_false, Bool.or_self, Bool.and_false,
      Bool.not_false]
  · rw [plane_in hk hp hx1 hx2 hy1 hy2]
    have bx := trunc_bounds (x := x) (by linarith) m.n1
    have by' := trunc_bounds (x := y) (by linarith) m.n2
    rw [if_neg]
    · unfold Map.pixelValue
      rw [checkIndex_ok hk, Res.bind_ok]
      simp only [hp]
      rw [if_pos]
      rcases he with he | he
      · have : myRound x = ((m.n1 + 1 : Nat) : ℤ) := myRound_eq (by push_cast; linarith) (by push_cast; linarith) (by linarith)
        rw [this]
        push_cast
        simp
      · have : myRound y = ((m.n2 + 1 : Nat) : ℤ) := myRound_eq (by push_cast; linarith) (by push_cast; linarith) (by linarith)
        rw [this]
        push_cast
        simp
    · rintro ⟨_, _, a2, _, a4⟩
      rw [bx.2] at a2
      rw [by'.2] at a4
      rcases he with he | he <;> linarith

/-- The value of a map that is not negative lies between zero and the largest pixel,
everywhere. -/
theorem C65_bounds_partial (m : Map) (h : m.Tidy) (hp : m.periodic = false) (k : Nat) (hk : k < m.energies.length)
    (hi : ℝ) (hb : ∀ i j, 1 ≤ i → i ≤ m.n1 → 1 ≤ j → j ≤ m.n2 → 0 ≤ pixel m.image k i j ∧ pixel m.image k i j ≤ hi)
    (p : Option (ℝ × ℝ)) : ∃ v, m.plane p k = .ok v ∧ 0 ≤ v ∧ v ≤ hi := by
  have hhi : 0 ≤ hi := by
    obtain ⟨p1, p2⟩ := h.pos
    have := hb 1 1 le_rfl p1 le_rfl p2
    linarith [this.1, this.2]
  cases p with
  | none => exact ⟨0, (C65_outside m h k hk).1, le_rfl, hhi⟩
  | some q =>
    obtain ⟨x, y⟩ := q
    by_cases ho : x < 0.5 ∨ (m.n1 : ℝ) + 0.5 < x ∨ y < 0.5 ∨ (m.n2 : ℝ) + 0.5 < y
    · exact ⟨0, (C65_outside m h k hk).2 x y hp ho, le_rfl, hhi⟩
    · simp only [not_or, not_lt] at ho
      obtain ⟨hx1, hx2, hy1, hy2⟩ := ho
      by_cases hin : m.interp = true ∧ 1 ≤ x ∧ x < m.n1 ∧ 1 ≤ y ∧ y < m.n2
      · obtain ⟨hI, a, b, c, d⟩ := hin
        refine ⟨_, C65_interior m h hp hI k hk x y a b c d, ?_⟩
        exact tents_bounds (p := pixel m.image k) hb (fun i => tent_nonneg _) (fun j => tent_nonneg _) (sum_tent_one _ a b)
          (sum_tent_one _ c d)
      · rcases hx2.lt_or_eq with hx2 | hx2
        · rcases hy2.lt_or_eq with hy2 | hy2
          · obtain ⟨i, hi1, a, b⟩ := pixel_of hx1 hx2
            obtain ⟨j, hj1, c, d⟩ := pixel_of hy1 hy2
            refine ⟨_, C65_nearest_partial m h hp k hk x y i j hi1 hj1 ⟨a, b, c, d⟩ ?_, hb _ _ hi1.1 hi1.2 hj1.1 hj1.2⟩
            by_contra hcon
            simp only [not_or, not_lt, not_le, Bool.not_eq_false] at hcon
            exact hin ⟨hcon.1, hcon.2.1, hcon.2.2.1, hcon.2.2.2.1, hcon.2.2.2.2⟩
          · exact ⟨0, (C65_edge_violates m hp k hk x y hx1 hx2.le hy1 hy2.le (Or.inr hy2)).2, le_rfl, hhi⟩
        · exact ⟨0, (C65_edge_violates m hp k hk x y hx1 hx2.le hy1 hy2 (Or.inl hx2)).2, le_rfl, hhi⟩

/-- The number of a plane is not checked properly: the one after the last is looked up beyond
the end. -/
theorem C65_index_violates (m : Map) (h : m.Tidy) (hp : m.periodic = false) (hI : m.interp = false)
    (i j : Nat) (hi : 1 ≤ i ∧ i ≤ m.n1) (hj : 1 ≤ j ∧ j ≤ m.n2) :
    m.plane (some ((i : ℝ), (j : ℝ))) m.energies.length = .ub := by
  have ci : (1 : ℝ) ≤ i := by exact_mod_cast hi.1
  have cj : (1 : ℝ) ≤ j := by exact_mod_cast hj.1
  have ci' : (i : ℝ) ≤ m.n1 := by exact_mod_cast hi.2
  have cj' : (j : ℝ) ≤ m.n2 := by exact_mod_cast hj.2
  have hck : m.checkIndex m.energies.length = .ok () := if_neg (by omega)
  unfold Map.plane
  rw [hck, Res.bind_ok]
  simp only [hp, hI, Bool.not_false, Bool.true_and, Bool.false_eq_true, if_false, if_true]
  rw [if_neg (by
    simp only [Bool.or_eq_true, decide_eq_true_eq, not_or, not_lt]
    refine ⟨⟨⟨?_, ?_⟩, ?_⟩, ?_⟩ <;> linarith)]
  unfold Map.pixelValue
  rw [hck, Res.bind_ok, myRound_eq (i := i) (by linarith) (by linarith) (by linarith),
    myRound_eq (i := j) (by linarith) (by linarith) (by linarith)]
  simp only [hp, Bool.not_false, Bool.true_and]
  rw [if_neg (by
    simp only [Bool.or_eq_true, decide_eq_true_eq, not_or, not_lt, not_le]
    omega)]
  have : m.image[m.energies.length]? = none := List.getElem?_eq_none (by rw [h.planes])
  unfold Map.at
  rw [this]

/-- A map of three by two pixels that does not close in itself: the hypotheses of the theorems above. -/
example : (⟨false, true, false, 2, 3, 2, [[[1, 2, 3], [4, 5, 6]]], [100]⟩ : Map).Tidy ∧
    InPixel (5 / 2) 2 3 2 ∧ tents 3 2 (pixel [[[1, 2, 3], [4, 5, 6]]] 0) (3 / 2) (3 / 2) = 3 := by
  refine ⟨⟨rfl, ?_, by simp⟩, by norm_num [InPixel], ?_⟩
  · intro plane hpl
    simp only [List.mem_cons, List.not_mem_nil, or_false] at hpl
    subst hpl
    refine ⟨rfl, fun row hr => ?_⟩
    simp only [List.mem_cons, List.not_mem_nil, or_false] at hr
    rcases hr with rfl | rfl <;> rfl
  · simp only [tents, Finset.sum_range_succ, Finset.sum_range_zero, tent, pixel]
    norm_num [abs_of_pos, abs_of_neg]

/-! ### Maps that close in themselves -/

theorem plane_periodic {m : Map} {k : Nat} (hk : k < m.energies.length) (hp : m.periodic = true) {x y : ℝ} (hy1 : 0.5 ≤ y)
    (hy2 : y ≤ (m.n2 : ℝ) + 0.5) :
    m.plane (some (x, y)) k =
      if m.interp = true ∧ 1 ≤ trunc y ∧ trunc y < m.n2 then m.bilinear (fmod x m.n1) y k
      else m.pixelValue (fmod x m.n1) y k := by
  unfold Map.plane
  rw [checkIndex_ok hk, Res.bind_ok]
  simp only [hp, Bool.not_true, Bool.false_and, Bool.false_or, Bool.false_eq_true, if_false, if_true]
  rw [if_neg (by simp [not_lt.2 hy1, not_lt.2 hy2])]
  cases hI : m.interp
  · simp
  · simp only [Bool.not_true, Bool.false_eq_true, if_false, true_and, Bool.or_eq_true, decide_eq_true_eq]
    by_cases h2 : trunc y < 1 ∨ (m.n2 : ℤ) ≤ trunc y
    · rw [if_pos h2, if_neg (by omega)]
    · rw [if_neg h2, if_pos (by omega)]

/-- Going once around does not change the value, for coordinates from zero. -/
theorem C65_around_partial (m : Map) (h : m.Tidy) (hp : m.periodic = true) (k : Nat) (x y : ℝ) (hx : 0 ≤ x) :
    m.plane (some (x + m.n1, y)) k = m.plane (some (x, y)) k := by
  have hn : (0 : ℝ) < m.n1 := by exact_mod_cast h.pos.1
  unfold Map.plane
  simp only [hp, if_true, fmod_add hn hx]

/-- Between the first and the last row a map that closes in itself is interpolated on the
cylinder. -/
theorem C65_cylinder_partial (m : Map) (h : m.Tidy) (hp : m.periodic = true) (hI : m.interp = true) (k : Nat)
    (hk : k < m.energies.length) (x y : ℝ) (hx1 : 0 ≤ x) (hx2 : x < m.n1) (hy1 : 1 ≤ y) (hy2 : y < m.n2) :
    m.plane (some (x, y)) k = .ok (cylinder m.n1 m.n2 (pixel m.image k) x y) := by
  have hn : (0 : ℝ) < m.n1 := by exact_mod_cast h.pos.1
  have by' := trunc_bounds (x := y) (by linarith) m.n2
  rw [plane_periodic hk hp (by linarith) (by linarith), if_pos ⟨hI, by'.1.2 hy1, by'.2.2 hy2⟩, fmod_of_lt hn hx1 hx2]
  unfold cylinder
  rw [swap_tents m.n1 m.n2 (fun i => tent (x - (i + 1)) + tent (x + m.n1 - (i + 1))) (fun j => tent (y - (j + 1)))
    (fun i j => pixel m.image k (i + 1) (j + 1))]
  rcases le_or_gt 1 x with hx | hx
  · rw [bilinear_eq h hk hx hx2 hy1 hy2]
    unfold tents
    rw [swap_tents m.n1 m.n2 (fun i => tent (x - (i + 1))) (fun j => tent (y - (j + 1)))
      (fun i j => pixel m.image k (i + 1) (j + 1))]
    congr 1
    refine Finset.sum_congr rfl fun j _ => ?_
    rw [sum_no_seam m.n1 (fun i => pixel m.image k (i + 1) (j + 1)) hx]
  · have hy0 : 0 ≤ y := by linarith
    have py : 1 ≤ ⌊y⌋₊ := Nat.le_floor (by exact_mod_cast hy1)
    have ly : ⌊y⌋₊ < m.n2 := (Nat.floor_lt hy0).2 hy2
    have e0 : trunc x = 0 := by rw [trunc_nonneg hx1]; exact Int.floor_eq_zero_iff.2 ⟨hx1, hx⟩
    unfold Map.bilinear
    simp only [e0, trunc_nonneg hy0, floor_cast hy0, hp, decide_true, Bool.and_self, if_true]
    have e2 : ((⌊y⌋₊ : Nat) : ℤ) - 1 = ((⌊y⌋₊ - 1 : Nat) : ℤ) := by omega
    have a1 := at_eq h hk (i := 0) (j := ⌊y⌋₊ - 1) h.pos.1 (by omega)
    have a2 := at_eq h hk (i := 0) (j := ⌊y⌋₊) h.pos.1 ly
    rw [Nat.cast_zero] at a1 a2
    rw [e2, back_eq h hk (by omega), Res.bind_ok, back_eq h hk ly, Res.bind_ok, a1, Res.bind_ok, a2, Res.bind_ok]
    congr 1
    rw [sum_tent m.n2 (fun j => ∑ i ∈ Finset.range m.n1, (tent (x - (i + 1)) + tent (x + m.n1 - (i + 1))) *
      pixel m.image k (i + 1) (j + 1)) hy1 hy2]
    rw [sum_seam m.n1 (fun i => pixel m.image k (i + 1) (⌊y⌋₊ - 1 + 1)) h.pos.1 hx1 hx,
      sum_seam m.n1 (fun i => pixel m.image k (i + 1) (⌊y⌋₊ + 1)) h.pos.1 hx1 hx]
    have : m.n1 - 1 + 1 = m.n1 := Nat.sub_add_cancel h.pos.1
    rw [this]
    push_cast
    ring

/-- At negative coordinates, from one pixel left of the seam, evaluation throws. -/
theorem C65_negative_violates (m : Map) (h : m.Tidy) (hp : m.periodic = true) (hI : m.interp = true) (k : Nat)
    (hk : k < m.energies.length) (x y : ℝ) (hx1 : -(m.n1 : ℝ) < x) (hx2 : x ≤ -1) (hy1 : 1 ≤ y) (hy2 : y < m.n2) :
    m.plane (some (x, y)) k = .throws := by
  have hn : (0 : ℝ) < m.n1 := by exact_mod_cast h.pos.1
  have by' := trunc_bounds (x := y) (by linarith) m.n2
  have hf : fmod x m.n1 = x := by
    unfold fmod
    have : trunc (x / m.n1) = 0 := by
      unfold trunc
      rw [if_neg (not_le.2 (div_neg_of_neg_of_pos (by linarith) hn)), Int.ceil_eq_zero_iff, Set.mem_Ioc]
      constructor
      · rw [lt_div_iff₀ hn]; linarith
      · exact div_nonpos_of_nonpos_of_nonneg (by linarith) hn.le
    rw [this]
    simp
  rw [plane_periodic hk hp (by linarith) (by linarith), if_pos ⟨hI, by'.1.2 hy1, by'.2.2 hy2⟩, hf]
  have ht : trunc x ≤ -1 := by
    unfold trunc
    rw [if_neg (by linarith), Int.ceil_le]
    push_cast
    exact hx2
  have hy0 : 0 ≤ y := by linarith
  have h1 : k < m.image.length := by rw [h.planes]; exact hk
  unfold Map.bilinear
  have hne : decide (trunc x = 0) = false := by
    rw [decide_eq_false_iff_not]; omega
  simp only [hne, Bool.and_false, Bool.false_eq_true, if_false]
  have ha : m.at k (trunc y - 1) (trunc x - 1) = .throws := by
    unfold Map.at
    rw [List.getElem?_eq_getElem h1]
    simp only []
    split
    · rfl
    · cases (m.image[k])[(trunc y - 1).toNat]? with
      | none => rfl
      | some row => exact if_pos (by omega)
  rw [ha]
  rfl

/-- A map with two columns and two rows that closes in itself. -/
def band (interp : Bool) (a b c d : ℝ) : Map := ⟨true, interp, false, 2, 2, 2, [[[a, b], [c, d]]], [100]⟩

theorem band_tidy (interp : Bool) (a b c d : ℝ) : (band interp a b c d).Tidy := by
  refine ⟨rfl, ?_, by simp [band]⟩
  intro plane hpl
  simp only [band, List.mem_cons, List.not_mem_nil, or_false] at hpl
  subst hpl
  refine ⟨rfl, ?_⟩
  intro row hr
  simp only [List.mem_cons, List.not_mem_nil, or_false] at hr
  rcases hr with rfl | rfl <;> rfl

/-- At the centre of the last pixel of the last row the value is that of the first pixel of
the row; without interpolation it is so in every row. -/
theorem C65_seam_violates (interp : Bool) (a b c d : ℝ) :
    (band interp a b c d).Tidy ∧ pixel (band interp a b c d).image 0 2 2 = d ∧
    (band interp a b c d).plane (some (2, 2)) 0 = .ok c ∧ (band false a b c d).plane (some (2, 1)) 0 = .ok a := by
  have hf : fmod 2 ((2 : Nat) : ℝ) = 0 := by
    unfold fmod
    have : trunc ((2 : ℝ) / ((2 : Nat) : ℝ)) = 1 := by
      rw [show (2 : ℝ) / ((2 : Nat) : ℝ) = ((1 : ℤ) : ℝ) by norm_num, trunc_nonneg (by norm_num), Int.floor_intCast]
    rw [this]
    norm_num
  have m0 : myRound (0 : ℝ) = 0 := by
    simp only [myRound, trunc]
    norm_num
  have m1 : myRound (1 : ℝ) = 1 := by
    simp only [myRound, trunc]
    norm_num
  have m2 : myRound (2 : ℝ) = 2 := by
    have : trunc (2 : ℝ) = 2 := by
      rw [trunc_nonneg (by norm_num)]
      exact Int.floor_ofNat 2
    simp only [myRound, this]
    norm_num
  refine ⟨band_tidy .., rfl, ?_, ?_⟩
  · rw [plane_periodic (m := band interp a b c d) (by simp [band]) rfl (by norm_num) (by norm_num [band]), if_neg]
    · unfold Map.pixelValue
      rw [checkIndex_ok (by simp [band]), Res.bind_ok]
      rw [show fmod 2 ((band interp a b c d).n1 : ℝ) = 0 from hf, m0, m2]
      rfl
    · rintro ⟨_, _, h2⟩
      have := (trunc_bounds (x := 2) (by norm_num) 2).2.1 h2
      norm_num at this
  · rw [plane_periodic (m := band false a b c d) (by simp [band]) rfl (by norm_num) (by norm_num [band]), if_neg (by simp [band])]
    unfold Map.pixelValue
    rw [checkIndex_ok (by simp [band]), Res.bind_ok]
    rw [show fmod 2 ((band false a b c d).n1 : ℝ) = 0 from hf, m0, m1]
    rfl

/-- Just left of the seam, at coordinates between minus one and zero, the interpolation
extrapolates: a map without negative pixels has a negative value. -/
theorem C65_extrapolates_violates :
    (band true 4 0 4 0).plane (some (-1 / 2, 1)) 0 = .ok (-2) := by
  have hf : fmod (-1 / 2) ((2 : Nat) : ℝ) = -1 / 2 := by
    unfold fmod
    have : trunc ((-1 / 2 : ℝ) / ((2 : Nat) : ℝ)) = 0 := by
      unfold trunc
      rw [if_neg (by norm_num), Int.ceil_eq_zero_iff, Set.mem_Ioc]
      norm_num
    rw [this]
    norm_num
  have t0 : trunc (-1 / 2 : ℝ) = 0 := by
    unfold trunc
    rw [if_neg (by norm_num), Int.ceil_eq_zero_iff, Set.mem_Ioc]
    norm_num
  have t1 : trunc (1 : ℝ) = 1 := by
    rw [trunc_nonneg (by norm_num)]
    exact Int.floor_one
  rw [plane_periodic (m := band true 4 0 4 0) (by simp [band]) rfl (by norm_num) (by norm_num [band]), if_pos]
  · unfold Map.bilinear
    rw [show fmod (-1 / 2) ((band true 4 0 4 0).n1 : ℝ) = -1 / 2 from hf, t0, t1]
    simp [band, Map.at, Map.back]
    norm_num
  · rw [t1]
    simp [band]

end Verif.Wcs
