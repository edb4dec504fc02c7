import Verif.Vec
import Verif.BinExp.Model
import Verif.BinExp.Spec
import Verif.Energy.Lemmas
import Mathlib.Tactic.Linarith
import Mathlib.Tactic.FieldSimp
import Mathlib.Tactic.Ring
import Mathlib.Algebra.BigOperators.Fin
set_option linter.unusedSectionVars false
set_option linter.unusedSimpArgs false
set_option linter.unusedVariables false
/-
Lemmas for the binned exposure maps.
-/
namespace Verif.BinExp
open Verif Verif.Vec Real Spec

theorem val_getElem {xs : List ℝ} {k : Nat} (h : k < xs.length) : val xs k = xs[k] := by
  have := getElem?_val h
  rw [List.getElem?_eq_getElem h] at this
  exact (Option.some.inj this).symm

theorem toUnsigned_nat {n : Nat} (h : n < 2 ^ 32) : toUnsigned (n : ℤ) = n := by
  unfold toUnsigned
  rw [Int.emod_eq_of_lt (by omega) (by exact_mod_cast h)]
  simp

/-! ### Energies -/

theorem close_iff {tol x b : ℝ} : close tol x b = true ↔ |b - x| < tol * |x| := by
  unfold close
  rw [decide_eq_true_iff, abs_div, abs_sub_comm]
  constructor
  · rintro ⟨h0, h⟩
    rwa [div_lt_iff₀ (abs_pos.2 h0)] at h
  · intro h
    have h0 : x ≠ 0 := by
      rintro rfl
      rw [abs_zero, mul_zero] at h
      exact absurd (abs_nonneg _) (not_le.2 h)
    exact ⟨h0, by rwa [div_lt_iff₀ (abs_pos.2 h0)]⟩

theorem findNearest_ok {tol : ℝ} {xs : List ℝ} {x : ℝ} {k : Nat} (h : findNearest tol xs x = .ok k) :
    k < xs.length ∧ (val xs k = x ∨ (x ∉ xs ∧ |val xs k - x| < tol * |x|)) := by
  classical
  unfold findNearest at h
  split at h
  · rename_i h1
    cases h
    have := List.findIdx_getElem (w := h1)
    refine ⟨h1, Or.inl ?_⟩
    simp only [decide_eq_true_iff] at this
    rw [val_getElem h1]
    exact this
  · rename_i h1
    split at h
    · rename_i h2
      cases h
      have := List.findIdx_getElem (w := h2)
      refine ⟨h2, Or.inr ⟨fun hx => h1 ?_, ?_⟩⟩
      · exact List.findIdx_lt_length.2 ⟨x, hx, by simp⟩
      · rw [val_getElem h2]
        exact close_iff.1 this
    · cases h

theorem findNearest_mem {tol : ℝ} {xs : List ℝ} {x : ℝ} (h : x ∈ xs) :
    ∃ k, findNearest tol xs x = .ok k ∧ k < xs.length ∧ val xs k = x := by
  classical
  have h1 : xs.findIdx (fun b => decide (b = x)) < xs.length := List.findIdx_lt_length.2 ⟨x, h, by simp⟩
  refine ⟨_, by unfold findNearest; rw [if_pos (by convert h1)], by convert h1, ?_⟩
  have := List.findIdx_getElem (w := h1)
  simp only [decide_eq_true_iff] at this
  rw [val_getElem (by convert h1)]
  convert this

theorem findNearest_throws {tol : ℝ} {xs : List ℝ} {x : ℝ} :
    findNearest tol xs x = .throws ↔ ∀ a ∈ xs, a ≠ x ∧ ¬ |a - x| < tol * |x| := by
  classical
  unfold findNearest
  split
  · rename_i h1
    rw [List.findIdx_lt_length] at h1
    obtain ⟨a, ha, hx⟩ := h1
    simp only [decide_eq_true_iff] at hx
    exact ⟨fun h => (by cases h), fun h => absurd hx (h a ha).1⟩
  · rename_i h1
    split
    · rename_i h2
      rw [List.findIdx_lt_length] at h2
      obtain ⟨a, ha, hx⟩ := h2
      exact ⟨fun h => (by cases h), fun h => absurd (close_iff.1 hx) (h a ha).2⟩
    · rename_i h2
      refine ⟨fun _ a ha => ⟨fun e => h1 ?_, fun e => h2 ?_⟩, fun _ => rfl⟩
      · exact List.findIdx_lt_length.2 ⟨a, ha, by simpa using e⟩
      · exact List.findIdx_lt_length.2 ⟨a, ha, close_iff.2 e⟩

theorem findNearest_not_ub {tol : ℝ} {xs : List ℝ} {x : ℝ} : findNearest tol xs x ≠ .ub := by
  classical
  unfold findNearest
  split
  · exact fun h => by cases h
  · split <;> exact fun h => by cases h

theorem findNearest_nodup {tol : ℝ} {xs : List ℝ} (hn : xs.Nodup) {k : Nat} (hk : k < xs.length) :
    findNearest tol xs (val xs k) = .ok k := by
  obtain ⟨k', h1, h2, h3⟩ := findNearest_mem (tol := tol) (val_mem hk)
  rw [h1]
  rw [val_getElem h2, val_getElem hk] at h3
  rw [(List.Nodup.getElem_inj_iff hn).1 h3]

/-! ### Pixels -/

theorem index_nat {i : Nat} {p : ℝ} (h1 : (i : ℝ) + 1 ≤ p) (h2 : p < (i : ℝ) + 2) : index p = i := by
  unfold index trunc
  have : (0 : ℝ) ≤ i := Nat.cast_nonneg i
  rw [if_pos (by linarith), Int.floor_eq_iff]
  push_cast
  constructor <;> linarith

theorem index_low {p : ℝ} (h1 : 0 < p) (h2 : p < 1) : index p = 0 := by
  unfold index trunc
  rw [if_neg (by linarith), Int.ceil_eq_iff]
  push_cast
  constructor <;> linarith

theorem index_neg {p : ℝ} (h1 : p ≤ 0) : index p < 0 := by
  unfold index trunc
  rw [if_neg (by linarith)]
  have h : ⌈p - 1⌉ ≤ -1 := Int.ceil_le.2 (by push_cast; linarith)
  omega

theorem index_ge {n : Nat} {p : ℝ} (h1 : (n : ℝ) + 1 ≤ p) : (n : ℤ) ≤ index p := by
  unfold index trunc
  have : (0 : ℝ) ≤ n := Nat.cast_nonneg n
  rw [if_pos (by linarith)]
  exact Int.le_floor.2 (by push_cast; linarith)

/-- A coordinate that the code takes as inside of the map. -/
theorem index_in {n : Nat} {p : ℝ} (h1 : 0 < p) (h2 : p < (n : ℝ) + 1) (hn : 0 < n) :
    ∃ i : Nat, i < n ∧ index p = i := by
  rcases lt_or_ge p 1 with h | h
  · exact ⟨0, hn, index_low h1 h⟩
  · have h0 : 0 ≤ ⌊p - 1⌋ := Int.floor_nonneg.2 (by linarith)
    refine ⟨⌊p - 1⌋.toNat, ?_, ?_⟩
    · have : ⌊p - 1⌋ < n := Int.floor_lt.2 (by push_cast; linarith)
      omega
    · unfold index trunc
      rw [if_pos (by linarith)]
      omega

theorem place_eq {n0 n1 i j k : Nat} : place n0 n1 i j k = (k * n1 + j) * n0 + i := by
  unfold place; ring

theorem place_lt {n0 n1 ne i j k : Nat} (hi : i < n0) (hj : j < n1) (hk : k < ne) :
    (k * n1 + j) * n0 + i < n0 * n1 * ne := by
  have := idx_lt hi (idx_lt hj hk)
  calc _ < ne * n1 * n0 := this
    _ = _ := by ring

theorem lookup_at {D : Type} {m : BMap D} {pix : D → Option (ℝ × ℝ)} {d : D} {e : ℝ} {p : ℝ × ℝ} {i j : ℤ} {k : Nat}
    (hpr : m.proj = some pix) (hpx : pix d = some p) (hk : findNearest defaultTol m.energies e = .ok k)
    (hi : index p.1 = i) (hj : index p.2 = j) (henf : m.enforce = false ∨ within m i j = true) :
    lookup m e d = .ok ((m.data[toUnsigned (((k : ℤ) * m.n1 + j) * m.n0 + i)]?).getD 0) := by
  have hkl : k < m.energies.length := (findNearest_ok hk).1
  unfold lookup
  simp only [hpr, hk, Res.bind_ok, hpx, hi, hj]
  rcases henf with h | h
  · simp [h]
  · simp [h, hkl]

theorem within_iff {D : Type} {m : BMap D} {i j : ℤ} :
    within m i j = true ↔ 0 ≤ i ∧ i < m.n0 ∧ 0 ≤ j ∧ j < m.n1 := by
  simp [within, and_assoc]

theorem lookup_in {D : Type} {m : BMap D} {pix : D → Option (ℝ × ℝ)} {d : D} {e : ℝ} {p : ℝ × ℝ} {i j k : Nat}
    (hpr : m.proj = some pix) (hpx : pix d = some p) (hk : findNearest defaultTol m.energies e = .ok k)
    (hi : index p.1 = i) (hj : index p.2 = j) (hi' : i < m.n0) (hj' : j < m.n1)
    (hl : m.n0 * m.n1 * m.energies.length < 2 ^ 32) :
    lookup m e d = .ok (val m.data (place m.n0 m.n1 i j k)) := by
  rw [lookup_at hpr hpx hk hi hj (Or.inr (within_iff.2 ⟨by omega, by omega, by omega, by omega⟩))]
  have hkl := (findNearest_ok hk).1
  have := place_lt hi' hj' hkl
  rw [show ((k : ℤ) * m.n1 + j) * m.n0 + i = (((k * m.n1 + j) * m.n0 + i : Nat) : ℤ) by push_cast; ring,
    toUnsigned_nat (by omega), place_eq, val]

theorem loop_row {D : Type} {m : BMap D} {i j : Nat} {e : ℝ} {es : List ℝ} {k : Nat}
    (hk : findNearest defaultTol m.energies e = .ok k) (hi' : i < m.n0) (hj' : j < m.n1)
    (hl : m.n0 * m.n1 * m.energies.length < 2 ^ 32) :
    lookupLoop m i j (e :: es) = (do
      let v ← vget m.data (place m.n0 m.n1 i j k)
      let vs ← lookupLoop m i j es
      .ok (v :: vs)) := by
  have hkl := (findNearest_ok hk).1
  have hp := place_lt hi' hj' hkl
  have hlt : m.n0 * m.n1 < 2 ^ 32 := by
    refine lt_of_le_of_lt ?_ hl
    exact Nat.le_mul_of_pos_right _ (by omega)
  have h2 := idx_lt hi' hj'
  have h3 : j * m.n0 + i < 2 ^ 32 := by rw [Nat.mul_comm m.n0] at hlt; omega
  have hw : (within m i j && decide (k < m.energies.length)) = true := by
    simp only [Bool.and_eq_true, decide_eq_true_iff]
    exact ⟨within_iff.2 ⟨by omega, by omega, by omega, by omega⟩, hkl⟩
  have hix : toUnsigned ((toUnsigned ((m.n0 : ℤ) * m.n1) : ℤ) * k + toUnsigned ((j : ℤ) * m.n0 + i)) =
      place m.n0 m.n1 i j k := by
    rw [show (m.n0 : ℤ) * m.n1 = ((m.n0 * m.n1 : Nat) : ℤ) by push_cast; ring, toUnsigned_nat hlt,
      show (j : ℤ) * m.n0 + i = ((j * m.n0 + i : Nat) : ℤ) by push_cast; ring, toUnsigned_nat h3]
    have e1 : m.n0 * m.n1 * k + (j * m.n0 + i) = (k * m.n1 + j) * m.n0 + i := by ring
    rw [show ((m.n0 * m.n1 : Nat) : ℤ) * k + ((j * m.n0 + i : Nat) : ℤ) =
      ((m.n0 * m.n1 * k + (j * m.n0 + i) : Nat) : ℤ) by push_cast; ring, toUnsigned_nat (by omega), e1, place_eq]
  rw [lookupLoop, hk, Res.bind_ok]
  simp only [hw, if_true, hix]

theorem loop_out {D : Type} {m : BMap D} {i j : ℤ} (hw : within m i j = false) : ∀ {es : List ℝ},
    (∀ e ∈ es, ∃ k, findNearest defaultTol m.energies e = .ok k) →
    lookupLoop m i j es = .ok (List.replicate es.length 0)
  | [], _ => rfl
  | e :: es, h => by
    obtain ⟨k, hk⟩ := h e (by simp)
    have hkl := (findNearest_ok hk).1
    rw [lookupLoop, hk, Res.bind_ok, loop_out hw (es := es) (fun a ha => h a (by simp [ha]))]
    simp [hw, hkl, Res.bind_ok, List.replicate_succ]

/-! ### Computing a map -/

section image
variable {n0 n1 ne : Nat}

/-- The vector holds the given values. -/
def Holds (n0 n1 ne : Nat) (m : List ℝ) (V : Nat → Nat → Nat → ℝ) : Prop :=
  m.length = n0 * n1 * ne ∧
    ∀ k j i, k < ne → j < n1 → i < n0 → val m ((k * n1 + j) * n0 + i) = V k j i

theorem Holds.congr {m : List ℝ} {V W : Nat → Nat → Nat → ℝ} (h : Holds n0 n1 ne m V)
    (he : ∀ k j i, k < ne → j < n1 → i < n0 → V k j i = W k j i) : Holds n0 n1 ne m W :=
  ⟨h.1, fun k j i hk hj hi => by rw [h.2 k j i hk hj hi, he k j i hk hj hi]⟩

theorem place_inj {i j k i' j' k' : Nat} (hi : i < n0) (hj : j < n1) (hi' : i' < n0) (hj' : j' < n1)
    (h : (k * n1 + j) * n0 + i = (k' * n1 + j') * n0 + i') : k = k' ∧ j = j' ∧ i = i' := by
  obtain ⟨h1, h2⟩ := idx_inj hi hi' h
  obtain ⟨h3, h4⟩ := idx_inj hj hj' h1
  exact ⟨h3, h4, h2⟩

theorem vadd_holds {m : List ℝ} {V : Nat → Nat → Nat → ℝ} (h : Holds n0 n1 ne m V) (hl : n0 * n1 * ne < 2 ^ 32)
    {i j k : Nat} (hk : k < ne) (hj : j < n1) (hi : i < n0) (x : ℝ) :
    ∃ m', vadd m (toUnsigned (((k : ℤ) * n1 + j) * n0 + i)) x = .ok m' ∧
      Holds n0 n1 ne m' (fun k' j' i' => if k' = k ∧ j' = j ∧ i' = i then V k j i + x else V k' j' i') := by
  have hp := place_lt hi hj hk
  have hm : (k * n1 + j) * n0 + i < m.length := by rw [h.1]; exact hp
  rw [show ((k : ℤ) * n1 + j) * n0 + i = (((k * n1 + j) * n0 + i : Nat) : ℤ) by push_cast; ring,
    toUnsigned_nat (by omega)]
  refine ⟨_, by unfold vadd; rw [getElem?_val hm], by simpa using h.1, ?_⟩
  intro k' j' i' hk' hj' hi'
  rw [val_set hm]
  by_cases he : (k' * n1 + j') * n0 + i' = (k * n1 + j) * n0 + i
  · obtain ⟨rfl, rfl, rfl⟩ := place_inj hi' hj' hi hj he
    simp only [if_true, and_self, h.2 _ _ _ hk' hj' hi']
  · have he' : ¬ (k' = k ∧ j' = j ∧ i' = i) := by rintro ⟨rfl, rfl, rfl⟩; exact he rfl
    simp only [if_neg he, if_neg he', h.2 _ _ _ hk' hj' hi']

theorem addPixel_holds {m : List ℝ} {V : Nat → Nat → Nat → ℝ} (h : Holds n0 n1 ne m V) (hl : n0 * n1 * ne < 2 ^ 32)
    {i j nresp : Nat} (hj : j < n1) (hi : i < n0) (f : Nat → Nat → ℝ) :
    ∃ m', addPixel n0 n1 ne nresp j i f m = .ok m' ∧
      Holds n0 n1 ne m' (fun k' j' i' => V k' j' i' +
        if j' = j ∧ i' = i then ∑ r ∈ Finset.range nresp, f k' r else 0) := by
  unfold addPixel
  obtain ⟨m', h1, h2⟩ := loop_inv (lo := 0) (n := ne) (s := m)
    (body := fun k m => loop (fun r m => vadd m (toUnsigned (((k : ℤ) * n1 + j) * n0 + i)) (f k r)) 0 nresp m)
    (fun k m => Holds n0 n1 ne m (fun k' j' i' => V k' j' i' +
        if j' = j ∧ i' = i ∧ k' < k then ∑ r ∈ Finset.range nresp, f k' r else 0))
    (h.congr fun k' j' i' _ _ _ => by simp)
    (by
      intro k w _ hk hw
      rw [Nat.zero_add] at hk
      obtain ⟨w', g1, g2⟩ := loop_inv (lo := 0) (n := nresp) (s := w)
        (body := fun r m => vadd m (toUnsigned (((k : ℤ) * n1 + j) * n0 + i)) (f k r))
        (fun r m => Holds n0 n1 ne m (fun k' j' i' => V k' j' i' +
          (if j' = j ∧ i' = i ∧ k' < k then ∑ r ∈ Finset.range nresp, f k' r else 0) +
          if j' = j ∧ i' = i ∧ k' = k then ∑ r ∈ Finset.range r, f k' r else 0))
        (hw.congr fun k' j' i' _ _ _ => by simp)
        (by
          intro r w _ hr hw
          obtain ⟨w', e1, e2⟩ := vadd_holds hw hl hk hj hi (f k r)
          refine ⟨w', e1, e2.congr fun k' j' i' _ _ _ => ?_⟩
          by_cases he : k' = k ∧ j' = j ∧ i' = i
          · obtain ⟨rfl, rfl, rfl⟩ := he
            simp [Finset.sum_range_succ]
            ring
          · have h' : ¬ (j' = j ∧ i' = i ∧ k' = k) := by tauto
            simp only [if_neg he, if_neg h'])
      refine ⟨w', g1, g2.congr fun k' j' i' _ _ _ => ?_⟩
      rw [Nat.zero_add]
      by_cases hji : j' = j ∧ i' = i
      · obtain ⟨rfl, rfl⟩ := hji
        rcases lt_trichotomy k' k with hlt | rfl | hgt
        · simp [hlt, show k' ≠ k by omega, show k' < k + 1 by omega]
        · simp
        · simp [show ¬ k' < k by omega, show k' ≠ k by omega, show ¬ k' < k + 1 by omega]
      · have a1 : ¬ (j' = j ∧ i' = i ∧ k' < k) := by tauto
        have a2 : ¬ (j' = j ∧ i' = i ∧ k' = k) := by tauto
        have a3 : ¬ (j' = j ∧ i' = i ∧ k' < k + 1) := by tauto
        simp only [if_neg a1, if_neg a2, if_neg a3, add_zero])
  refine ⟨m', h1, h2.congr fun k' j' i' hk _ _ => ?_⟩
  simp [hk]

/-- The value of a pixel. -/
noncomputable def total {D : Type} (nresp : Nat) (dir : Nat → Nat → Option D) (f : D → Nat → Nat → ℝ) (k j i : Nat) : ℝ :=
  match dir (i + 1) (j + 1) with
  | none => 0
  | some d => ∑ r ∈ Finset.range nresp, f d k r

theorem onePixel_holds {D : Type} {m : List ℝ} {V : Nat → Nat → Nat → ℝ} (h : Holds n0 n1 ne m V)
    (hl : n0 * n1 * ne < 2 ^ 32) {i j nresp : Nat} (hj : j < n1) (hi : i < n0) (dir : Nat → Nat → Option D)
    (f : D → Nat → Nat → ℝ) :
    ∃ m', onePixel n0 n1 ne nresp dir f j i m = .ok m' ∧
      Holds n0 n1 ne m' (fun k' j' i' => V k' j' i' +
        if j' = j ∧ i' = i then total nresp dir f k' j' i' else 0) := by
  unfold onePixel
  cases hd : dir (i + 1) (j + 1) with
  | none =>
    refine ⟨m, rfl, h.congr fun k' j' i' _ _ _ => ?_⟩
    by_cases he : j' = j ∧ i' = i
    · obtain ⟨rfl, rfl⟩ := he
      simp [total, hd]
    · simp [he]
  | some d =>
    obtain ⟨m', h1, h2⟩ := addPixel_holds h hl (nresp := nresp) hj hi (f d)
    refine ⟨m', h1, h2.congr fun k' j' i' _ _ _ => ?_⟩
    by_cases he : j' = j ∧ i' = i
    · obtain ⟨rfl, rfl⟩ := he
      simp [total, hd]
    · simp [he]

theorem computeMap_holds {D : Type} (hl : n0 * n1 * ne < 2 ^ 32) (nresp : Nat) (dir : Nat → Nat → Option D)
    (f : D → Nat → Nat → ℝ) :
    ∃ m, computeMap n0 n1 ne nresp dir f = .ok m ∧ Holds n0 n1 ne m (total nresp dir f) := by
  unfold computeMap
  obtain ⟨m', h1, h2⟩ := loop_inv (lo := 0) (n := n1) (s := List.replicate (n0 * n1 * ne) (0 : ℝ))
    (body := fun j m => loop (fun i m => onePixel n0 n1 ne nresp dir f j i m) 0 n0 m)
    (fun j m => Holds n0 n1 ne m (fun k' j' i' => if j' < j then total nresp dir f k' j' i' else 0))
    ⟨by simp, fun k j i hk hj hi => by
      have : val (List.replicate (n0 * n1 * ne) (0 : ℝ)) ((k * n1 + j) * n0 + i) = 0 := by simp
      simp only [this, if_neg (Nat.not_lt_zero _)]⟩
    (by
      intro j w _ hj hw
      rw [Nat.zero_add] at hj
      obtain ⟨w', g1, g2⟩ := loop_inv (lo := 0) (n := n0) (s := w)
        (body := fun i m => onePixel n0 n1 ne nresp dir f j i m)
        (fun i m => Holds n0 n1 ne m (fun k' j' i' => (if j' < j then total nresp dir f k' j' i' else 0) +
          if j' = j ∧ i' < i then total nresp dir f k' j' i' else 0))
        (hw.congr fun k' j' i' _ _ _ => by simp)
        (by
          intro i w _ hi hw
          rw [Nat.zero_add] at hi
          obtain ⟨w', e1, e2⟩ := onePixel_holds hw hl (nresp := nresp) hj hi dir f
          refine ⟨w', e1, e2.congr fun k' j' i' _ _ _ => ?_⟩
          by_cases he : j' = j
          · subst he
            rcases lt_trichotomy i' i with hlt | rfl | hgt
            · simp [hlt, show i' ≠ i by omega, show i' < i + 1 by omega]
            · simp
            · simp [show ¬ i' < i by omega, show i' ≠ i by omega, show ¬ i' < i + 1 by omega]
          · simp [he])
      refine ⟨w', g1, g2.congr fun k' j' i' _ _ hi => ?_⟩
      rw [Nat.zero_add]
      rcases lt_trichotomy j' j with hlt | rfl | hgt
      · simp [hlt, show j' ≠ j by omega, show j' < j + 1 by omega]
      · simp [hi]
      · simp [show ¬ j' < j by omega, show j' ≠ j by omega, show ¬ j' < j + 1 by omega])
  refine ⟨m', h1, h2.congr fun k' j' i' _ hj _ => ?_⟩
  simp [hj]
end image

theorem means_length : ∀ {es : List ℝ}, (means es).length = es.length - 1
  | [] => rfl
  | [_] => rfl
  | a :: b :: l => by simp [means, means_length (es := b :: l)]

theorem val_means : ∀ {es : List ℝ} {k : Nat}, k + 1 < es.length → val (means es) k = √(val es k * val es (k + 1))
  | [], k, h => by simp at h
  | [_], k, h => by simp at h
  | a :: b :: l, 0, _ => rfl
  | a :: b :: l, k + 1, h => by
    rw [means, val_cons_succ, val_means (es := b :: l) (by simpa using h)]
    simp only [val_cons_succ]

end Verif.BinExp
