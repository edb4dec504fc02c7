import Verif.BinExp.Lemmas
import Mathlib.Tactic.NormNum
set_option linter.unusedSectionVars false
set_option linter.unusedSimpArgs false
set_option linter.unusedVariables false
/-
C85: looking up the exposure of a binned exposure map.
-/
namespace Verif.BinExp
open Verif Verif.Vec Real Spec

/-! ### Finding the energy -/

/-- C85: an energy of the map is found. -/
theorem C85_energy_exact (tol : ℝ) (xs : List ℝ) (x : ℝ) (h : x ∈ xs) :
    ∃ k, findNearest tol xs x = .ok k ∧ xs[k]? = some x := by
  obtain ⟨k, h1, h2, h3⟩ := findNearest_mem (tol := tol) h
  exact ⟨k, h1, by rw [getElem?_val h2, h3]⟩

/-- C85: whatever energy is used is the one asked for, up to the tolerance. -/
theorem C85_energy_close (tol : ℝ) (htol : 0 ≤ tol) (xs : List ℝ) (x : ℝ) (k : Nat) (h : findNearest tol xs x = .ok k) :
    ∃ a, xs[k]? = some a ∧ |a - x| ≤ tol * |x| := by
  obtain ⟨h1, h2⟩ := findNearest_ok h
  refine ⟨_, getElem?_val h1, ?_⟩
  rcases h2 with h2 | h2
  · rw [h2, sub_self, abs_zero]
    exact mul_nonneg htol (abs_nonneg _)
  · exact h2.2.le

/-- C85: an error is raised exactly if the map has no energy within the tolerance. -/
theorem C85_energy_missing (tol : ℝ) (xs : List ℝ) (x : ℝ) :
    (∃ k, findNearest tol xs x = .ok k) ↔ ∃ a ∈ xs, a = x ∨ |a - x| < tol * |x| := by
  constructor
  · rintro ⟨k, h⟩
    obtain ⟨h1, h2⟩ := findNearest_ok h
    refine ⟨_, val_mem h1, ?_⟩
    rcases h2 with h2 | h2
    · exact Or.inl h2
    · exact Or.inr h2.2
  · rintro ⟨a, ha, h⟩
    rcases hr : findNearest tol xs x with k | _ | _
    · exact ⟨k, rfl⟩
    · have := findNearest_throws.1 hr a ha
      tauto
    · exact absurd hr findNearest_not_ub

/-- C85 (partial): the energy is the closest one if the energies of the map are further apart than
twice the tolerance. -/
theorem C85_closest_partial (tol : ℝ) (xs : List ℝ) (x : ℝ) (k : Nat)
    (hsep : ∀ a ∈ xs, ∀ b ∈ xs, a ≠ b → 2 * (tol * |x|) ≤ |a - b|) (h : findNearest tol xs x = .ok k) :
    Closest xs x k := by
  obtain ⟨h1, h2⟩ := findNearest_ok h
  refine ⟨_, getElem?_val h1, fun b hb => ?_⟩
  rcases h2 with h2 | ⟨_, h2⟩
  · rw [h2, sub_self, abs_zero]
    exact abs_nonneg _
  · by_cases he : val xs k = b
    · rw [he]
    · have h3 := hsep _ (val_mem h1) b hb he
      have h4 : |val xs k - b| ≤ |val xs k - x| + |b - x| := by
        rw [show val xs k - b = (val xs k - x) - (b - x) by ring]
        exact abs_sub _ _
      linarith

/-- C85 (violated): the energy is not always the closest one: the first one within the tolerance
is taken. -/
theorem C85_closest_violates : ∃ xs : List ℝ, ∃ x : ℝ, ∃ k, 0 < x ∧ xs.Pairwise (· < ·) ∧
    findNearest defaultTol xs x = .ok k ∧ ¬ Closest xs x k := by
  have hne : ∀ k, findNearest defaultTol [100000, 1000005 / 10] ((1000004 / 10 : ℝ)) = .ok k → k = 0 := by
    intro k h
    classical
    unfold findNearest at h
    have e1 : ¬ (List.findIdx (fun b => decide (b = (1000004 / 10 : ℝ))) [(100000 : ℝ), 1000005 / 10] < 2) := by
      rw [show (2 : Nat) = [(100000 : ℝ), 1000005 / 10].length from rfl, List.findIdx_lt_length]
      rintro ⟨a, ha, h⟩
      simp only [decide_eq_true_iff] at h
      simp only [List.mem_cons, List.not_mem_nil, or_false] at ha
      rcases ha with rfl | rfl <;> norm_num at h
    have e2 : List.findIdx (fun b => close defaultTol (1000004 / 10 : ℝ) b) [(100000 : ℝ), 1000005 / 10] = 0 := by
      rw [List.findIdx_cons]
      have : close defaultTol (1000004 / 10 : ℝ) 100000 = true := by
        rw [close_iff]
        norm_num [defaultTol, abs_of_pos]
      rw [this]
      rfl
    rw [if_neg (by convert e1; simp)] at h
    rw [if_pos (by rw [e2]; norm_num)] at h
    rw [e2] at h
    cases h
    rfl
  obtain ⟨k, hk⟩ := (C85_energy_missing defaultTol [100000, 1000005 / 10] (1000004 / 10 : ℝ)).2
    ⟨100000, by simp, Or.inr (by norm_num [defaultTol, abs_of_pos])⟩
  have h0 := hne k hk
  subst h0
  refine ⟨[100000, 1000005 / 10], 1000004 / 10, 0, by norm_num, by simp; norm_num, hk, ?_⟩
  rintro ⟨a, ha, hc⟩
  simp only [List.getElem?_cons_zero, Option.some.injEq] at ha
  subst ha
  have := hc (1000005 / 10) (by simp)
  norm_num [abs_of_pos] at this

/-! ### Finding the pixel -/

section pixel
variable {D : Type} (m : BMap D) (pix : D → Option (ℝ × ℝ)) (hpr : m.proj = some pix)
  (hl : m.n0 * m.n1 * m.energies.length < 2 ^ 32) (hd : m.data.length = m.n0 * m.n1 * m.energies.length)
  (d : D) (p : ℝ × ℝ) (hpx : pix d = some p)
include hpr hpx

include hl in
/-- C85 (partial): in the upper part of a pixel (from the centre up to the edge, in both
coordinates), the value of that pixel and energy is found.  Pixels' centres belong to it. -/
theorem C85_upper_partial (e : ℝ) (i j k : Nat) (hi : i < m.n0) (hj : j < m.n1)
    (hk : findNearest defaultTol m.energies e = .ok k) (h1 : InPixel i p.1) (h2 : InPixel j p.2)
    (c1 : (i : ℝ) + 1 ≤ p.1) (c2 : (j : ℝ) + 1 ≤ p.2) :
    lookup m e d = .ok (val m.data (place m.n0 m.n1 i j k)) :=
  lookup_in hpr hpx hk (index_nat c1 (by have := h1.2; linarith)) (index_nat c2 (by have := h2.2; linarith)) hi hj hl

include hl in
/-- C85 (violated): in the lower part of a pixel the value of the pixel before it is found, and so
for rows. -/
theorem C85_lower_violates (e : ℝ) (i j k : Nat) (hi : i + 1 < m.n0) (hj : j < m.n1)
    (hk : findNearest defaultTol m.energies e = .ok k) (h1 : InPixel (i + 1) p.1) (c1 : p.1 < (i : ℝ) + 2)
    (h2 : InPixel j p.2) (c2 : (j : ℝ) + 1 ≤ p.2) :
    lookup m e d = .ok (val m.data (place m.n0 m.n1 i j k)) := by
  have := h1.1
  push_cast at this
  exact lookup_in hpr hpx hk (index_nat (by linarith) c1) (index_nat c2 (by have := h2.2; linarith)) (by omega) hj hl

include hl in
/-- C85 (violated): a position beyond the end of a row gives the value of a pixel of the next
row, at the other side of the map. -/
theorem C85_row_violates (henf : m.enforce = false) (e : ℝ) (i j k : Nat) (hi : i < m.n0) (hj : j + 1 < m.n1)
    (hk : findNearest defaultTol m.energies e = .ok k) (h1 : InPixel (m.n0 + i) p.1) (c1 : (m.n0 : ℝ) + i + 1 ≤ p.1)
    (h2 : InPixel j p.2) (c2 : (j : ℝ) + 1 ≤ p.2) :
    Outside m.n0 p.1 ∧ lookup m e d = .ok (val m.data (place m.n0 m.n1 i (j + 1) k)) := by
  have hh := h1.2
  push_cast at hh
  have hk' := (findNearest_ok hk).1
  refine ⟨Or.inr (by have : (0 : ℝ) ≤ i := Nat.cast_nonneg i; linarith), ?_⟩
  rw [lookup_at hpr hpx hk (index_nat (i := m.n0 + i) (by push_cast; linarith) (by push_cast; linarith))
    (index_nat c2 (by have := h2.2; linarith)) (Or.inl henf)]
  have hp := place_lt hi hj hk'
  have e1 : (k * m.n1 + j) * m.n0 + (m.n0 + i) = (k * m.n1 + (j + 1)) * m.n0 + i := by ring
  rw [show ((k : ℤ) * m.n1 + (j : ℕ)) * m.n0 + ((m.n0 + i : ℕ) : ℤ) =
    (((k * m.n1 + j) * m.n0 + (m.n0 + i) : Nat) : ℤ) by push_cast; ring, e1, toUnsigned_nat (by omega), place_eq, val]

include hl in
/-- C85 (violated): a position above the last row gives the value at the next energy. -/
theorem C85_plane_violates (henf : m.enforce = false) (e : ℝ) (i j k : Nat) (hi : i < m.n0) (hj : j < m.n1)
    (hk : findNearest defaultTol m.energies e = .ok k) (hk1 : k + 1 < m.energies.length)
    (h1 : InPixel i p.1) (c1 : (i : ℝ) + 1 ≤ p.1)
    (h2 : InPixel (m.n1 + j) p.2) (c2 : (m.n1 : ℝ) + j + 1 ≤ p.2) :
    Outside m.n1 p.2 ∧ lookup m e d = .ok (val m.data (place m.n0 m.n1 i j (k + 1))) := by
  have hh := h2.2
  push_cast at hh
  refine ⟨Or.inr (by have : (0 : ℝ) ≤ j := Nat.cast_nonneg j; linarith), ?_⟩
  rw [lookup_at hpr hpx hk (index_nat c1 (by have := h1.2; linarith))
    (index_nat (i := m.n1 + j) (by push_cast; linarith) (by push_cast; linarith)) (Or.inl henf)]
  have hp := place_lt hi hj hk1
  have e1 : (k * m.n1 + (m.n1 + j)) * m.n0 + i = ((k + 1) * m.n1 + j) * m.n0 + i := by ring
  rw [show ((k : ℤ) * m.n1 + ((m.n1 + j : ℕ) : ℤ)) * m.n0 + (i : ℕ) =
    (((k * m.n1 + (m.n1 + j)) * m.n0 + i : Nat) : ℤ) by push_cast; ring, e1, toUnsigned_nat (by omega), place_eq, val]

/-- C85: with the boundaries enforced, a position that is at least half a pixel outside of the map
is refused by both functions. -/
theorem C85_enforced (henf : m.enforce = true) (e : ℝ) (es : List ℝ)
    (hout : p.1 ≤ 0 ∨ (m.n0 : ℝ) + 1 ≤ p.1 ∨ p.2 ≤ 0 ∨ (m.n1 : ℝ) + 1 ≤ p.2) :
    lookup m e d = .throws ∧ lookups m d es = .throws := by
  have hw : within m (index p.1) (index p.2) = false := by
    rw [← Bool.not_eq_true, within_iff]
    rcases hout with h | h | h | h
    · have := index_neg h; omega
    · have := index_ge h; omega
    · have := index_neg h; omega
    · have := index_ge h; omega
  constructor
  · unfold lookup
    simp only [hpr]
    rcases hr : findNearest defaultTol m.energies e with k | _ | _
    · simp [hpx, hw, henf, Res.bind_ok]
    · rfl
    · exact absurd hr findNearest_not_ub
  · unfold lookups
    simp [hpr, hpx, hw, henf]

/-- C85 (violated): half a pixel outside of the map is not refused but gives the values at the
edge. -/
theorem C85_edge_violates (hl : m.n0 * m.n1 * m.energies.length < 2 ^ 32) (e : ℝ) (j k : Nat) (h0 : 0 < m.n0)
    (hj : j < m.n1) (hk : findNearest defaultTol m.energies e = .ok k) (h1 : 0 < p.1) (c1 : p.1 < 1 / 2)
    (h2 : InPixel j p.2) (c2 : (j : ℝ) + 1 ≤ p.2) :
    Outside m.n0 p.1 ∧ lookup m e d = .ok (val m.data (place m.n0 m.n1 0 j k)) :=
  ⟨Or.inl c1, lookup_in hpr hpx hk (index_low h1 (by linarith)) (index_nat c2 (by have := h2.2; linarith)) h0 hj hl⟩

/-- C85: the function for many energies gives zeros outside of the map (the boundaries not
enforced). -/
theorem C85_zeros (henf : m.enforce = false) (es : List ℝ)
    (hout : p.1 ≤ 0 ∨ (m.n0 : ℝ) + 1 ≤ p.1 ∨ p.2 ≤ 0 ∨ (m.n1 : ℝ) + 1 ≤ p.2)
    (hes : ∀ e ∈ es, ∃ k, findNearest defaultTol m.energies e = .ok k) :
    lookups m d es = .ok (List.replicate es.length 0) := by
  have hw : within m (index p.1) (index p.2) = false := by
    rw [← Bool.not_eq_true, within_iff]
    rcases hout with h | h | h | h
    · have := index_neg h; omega
    · have := index_ge h; omega
    · have := index_neg h; omega
    · have := index_ge h; omega
  unfold lookups
  simp only [hpr, hpx, henf, Bool.false_and, Bool.false_eq_true, if_false]
  exact loop_out hw hes

include hl hd in
/-- C85: inside of the map the two functions agree, energy by energy. -/
theorem C85_agree (h1 : 0 < p.1) (h2 : p.1 < (m.n0 : ℝ) + 1) (h3 : 0 < p.2) (h4 : p.2 < (m.n1 : ℝ) + 1)
    (h0 : 0 < m.n0) (h0' : 0 < m.n1) :
    ∀ es : List ℝ, (∀ e ∈ es, ∃ k, findNearest defaultTol m.energies e = .ok k) →
      ∃ vs, lookups m d es = .ok vs ∧ vs.length = es.length ∧
        ∀ (n : Nat) (e : ℝ), es[n]? = some e → lookup m e d = .ok (val vs n) := by
  obtain ⟨i, hi, ei⟩ := index_in h1 h2 h0
  obtain ⟨j, hj, ej⟩ := index_in h3 h4 h0'
  have hw : within m i j = true := within_iff.2 ⟨by omega, by omega, by omega, by omega⟩
  have main : ∀ es : List ℝ, (∀ e ∈ es, ∃ k, findNearest defaultTol m.energies e = .ok k) →
      ∃ vs, lookupLoop m i j es = .ok vs ∧ vs.length = es.length ∧
        ∀ (n : Nat) (e : ℝ), es[n]? = some e → lookup m e d = .ok (val vs n) := by
    intro es
    induction es with
    | nil => exact fun _ => ⟨[], rfl, rfl, fun n e h => by simp at h⟩
    | cons a es ih =>
      intro hes
      obtain ⟨k, hk⟩ := hes a (by simp)
      obtain ⟨vs, g1, g2, g3⟩ := ih (fun e he => hes e (by simp [he]))
      have hkl := (findNearest_ok hk).1
      have hp : place m.n0 m.n1 i j k < m.data.length := by
        rw [hd, place_eq]
        exact place_lt hi hj hkl
      refine ⟨val m.data (place m.n0 m.n1 i j k) :: vs, ?_, by simp [g2], ?_⟩
      · rw [loop_row hk hi hj hl, vget_val hp, Res.bind_ok, g1, Res.bind_ok]
      · intro n e hn
        cases n with
        | zero =>
          simp only [List.getElem?_cons_zero, Option.some.injEq] at hn
          subst hn
          exact lookup_in hpr hpx hk ei ej hi hj hl
        | succ n => exact g3 n e (by simpa using hn)
  intro es hes
  obtain ⟨vs, g1, g2⟩ := main es hes
  refine ⟨vs, ?_, g2⟩
  unfold lookups
  simp only [hpr, hpx, ei, ej, hw, Bool.not_true, Bool.and_false, Bool.false_eq_true, if_false]
  exact g1
end pixel

/-- C85 (violated): outside of the map the two functions do not agree. -/
theorem C85_disagree_violates : ∃ m : BMap (ℝ × ℝ), m.proj = some some ∧ m.data.length = m.n0 * m.n1 * m.energies.length ∧
    ∃ d : ℝ × ℝ, Outside m.n0 d.1 ∧ lookup m 1 d = .ok 7 ∧ lookups m d [1] = .ok [0] := by
  have hk : findNearest defaultTol [1] 1 = .ok 0 := findNearest_nodup (xs := [1]) (k := 0) (by simp) (by simp)
  refine ⟨⟨[1], 2, 2, [5, 6, 7, 8], false, some some⟩, rfl, rfl, (3, 1), Or.inr (by norm_num), ?_, ?_⟩
  · have := (C85_row_violates ⟨[1], 2, 2, [5, 6, 7, 8], false, some some⟩ some rfl (by norm_num) (3, 1) (3, 1) rfl rfl 1
      0 0 0 (by norm_num) (by norm_num) hk (by constructor <;> norm_num) (by norm_num) (by constructor <;> norm_num)
      (by norm_num)).2
    rw [this]
    rfl
  · exact C85_zeros ⟨[1], 2, 2, [5, 6, 7, 8], false, some some⟩ some rfl (3, 1) (3, 1) rfl rfl [1]
      (Or.inr (Or.inl (by norm_num))) (fun e he => ⟨0, by simp at he; rw [he]; exact hk⟩)

/-- C85 (violated): a position in the second of two pixels, but in its lower part, gets the value of
the first. -/
theorem C85_shift_violates : ∃ m : BMap (ℝ × ℝ), m.proj = some some ∧ m.data.length = m.n0 * m.n1 * m.energies.length ∧
    ∃ d : ℝ × ℝ, InPixel 1 d.1 ∧ InPixel 0 d.2 ∧ lookup m 1 d = .ok 5 ∧ val m.data (place m.n0 m.n1 1 0 0) = 6 := by
  have hk : findNearest defaultTol [1] 1 = .ok 0 := findNearest_nodup (xs := [1]) (k := 0) (by simp) (by simp)
  refine ⟨⟨[1], 2, 1, [5, 6], false, some some⟩, rfl, rfl, (7 / 4, 1), by constructor <;> norm_num,
    by constructor <;> norm_num, ?_, rfl⟩
  rw [C85_lower_violates ⟨[1], 2, 1, [5, 6], false, some some⟩ some rfl (by norm_num) (7 / 4, 1) (7 / 4, 1) rfl 1 0 0 0
    (by norm_num) (by norm_num) hk (by constructor <;> norm_num) (by norm_num) (by constructor <;> norm_num) (by norm_num)]
  rfl

/-! The hypotheses are met: a map of two by two pixels and two energies. -/
noncomputable section example85
def exMap : BMap (ℝ × ℝ) := ⟨[1, 2], 2, 2, [1, 2, 3, 4, 5, 6, 7, 8], false, some some⟩

theorem exMap_energy : findNearest defaultTol exMap.energies 2 = .ok 1 :=
  findNearest_nodup (xs := [1, 2]) (k := 1) (by norm_num) (by simp)

example : lookup exMap 2 (2, 1) = .ok 6 := by
  rw [C85_upper_partial exMap some rfl (by norm_num [exMap]) (2, 1) (2, 1) rfl 2 1 0 1 (by norm_num [exMap])
    (by norm_num [exMap]) exMap_energy (by constructor <;> norm_num) (by constructor <;> norm_num) (by norm_num) (by norm_num)]
  rfl

example : ∃ vs, lookups exMap (2, 1) [2] = .ok vs ∧ vs.length = 1 := by
  obtain ⟨vs, h1, h2, _⟩ := C85_agree exMap some rfl (by norm_num [exMap]) rfl (2, 1) (2, 1) rfl (by norm_num)
    (by norm_num [exMap]) (by norm_num) (by norm_num [exMap]) (by norm_num [exMap]) (by norm_num [exMap]) [2]
    (fun e he => ⟨1, by simp at he; rw [he]; exact exMap_energy⟩)
  exact ⟨vs, h1, h2⟩

example : ∀ a ∈ [(1 : ℝ), 2], ∀ b ∈ [(1 : ℝ), 2], a ≠ b → 2 * (defaultTol * |(2 : ℝ)|) ≤ |a - b| := by
  intro a ha b hb
  simp only [List.mem_cons, List.not_mem_nil, or_false] at ha hb
  rcases ha with rfl | rfl <;> rcases hb with rfl | rfl <;> norm_num [defaultTol]
end example85

end Verif.BinExp
