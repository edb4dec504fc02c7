import Verif.Vec
import Verif.PsfInt.Model
import Verif.PsfInt.Spec
import Mathlib.Tactic.Linarith
import Mathlib.Tactic.FieldSimp
import Mathlib.Tactic.Ring
import Mathlib.Algebra.Order.BigOperators.Group.Finset
set_option linter.unusedSectionVars false
set_option linter.unusedSimpArgs false
set_option linter.unusedVariables false
/-
Lemmas for the estimate of the point-spread function in a pixel.
-/
namespace Verif.PsfInt
open Verif Verif.Vec Real Spec

theorem cell_ok {z : List (List ℝ)} {n2 n1 : Nat} {Z : Nat → Nat → ℝ} (h : IsTable z n2 n1 Z) {i j : Nat} (hi : i < n2)
    (hj : j < n1) : cell z i j = .ok (Z i j) := by
  obtain ⟨row, h1, h2, h3⟩ := h.2 i hi
  unfold cell vget
  rw [h1]
  simp only [Res.bind_ok]
  rw [h3 j hj]

theorem index_lt {val : ℝ} {n : Nat} (hn : 2 ≤ n) : index val n + 1 < n := by
  unfold index
  simp only
  rw [if_neg (by omega)]
  omega

theorem index_in {val : ℝ} {n : Nat} (hn : 2 ≤ n) (h0 : 0 ≤ val) (h1 : val ≤ n - 1) :
    (index val n : ℝ) ≤ val ∧ val ≤ index val n + 1 := by
  have hc : cut val n = val := by
    unfold cut
    rw [if_neg (not_lt.2 h0), if_neg (fun h => absurd h.2 (not_lt.2 h1))]
  unfold index
  simp only
  rw [if_neg (by omega), hc]
  have hf0 : 0 ≤ ⌊val⌋ := Int.floor_nonneg.2 h0
  obtain ⟨f, hf⟩ := Int.eq_ofNat_of_zero_le hf0
  have hle := Int.floor_le val
  have hlt := Int.lt_floor_add_one val
  rw [hf] at hle hlt ⊢
  push_cast at hle hlt
  rw [Int.toNat_natCast]
  constructor
  · refine le_trans ?_ hle
    exact_mod_cast min_le_left _ _
  · rcases le_or_gt f (n - 2) with h | h
    · rw [min_eq_left h]; exact hlt.le
    · rw [min_eq_right h.le]
      have : ((n - 2 : Nat) : ℝ) = n - 2 := by rw [Nat.cast_sub hn]; norm_num
      rw [this]
      linarith

theorem bilinear_ok {z : List (List ℝ)} {n2 n1 : Nat} {Z : Nat → Nat → ℝ} (h : IsTable z n2 n1 Z) (h2 : 2 ≤ n2) (h1 : 2 ≤ n1)
    (x y : ℝ) : bilinear x y z = .ok (lerp2 (x - index x n2) (y - index y n1) (Z (index x n2) (index y n1))
      (Z (index x n2) (index y n1 + 1)) (Z (index x n2 + 1) (index y n1)) (Z (index x n2 + 1) (index y n1 + 1))) := by
  obtain ⟨row, g1, g2, g3⟩ := h.2 0 (by omega)
  unfold bilinear
  have hv : vget z 0 = .ok row := by unfold vget; rw [g1]
  rw [hv, Res.bind_ok]
  simp only [h.1, g2]
  have hx := index_lt (val := x) h2
  have hy := index_lt (val := y) h1
  rw [cell_ok h (by omega) (by omega), Res.bind_ok, cell_ok h (by omega) (by omega), Res.bind_ok,
    cell_ok h (by omega) (by omega), Res.bind_ok, cell_ok h (by omega) (by omega), Res.bind_ok]
  congr 1
  unfold lerp2 rem
  simp only
  ring

theorem lerp2_between {u v a b c d lo hi : ℝ} (hu : 0 ≤ u) (hu1 : u ≤ 1) (hv : 0 ≤ v) (hv1 : v ≤ 1)
    (ha : lo ≤ a ∧ a ≤ hi) (hb : lo ≤ b ∧ b ≤ hi) (hc : lo ≤ c ∧ c ≤ hi) (hd : lo ≤ d ∧ d ≤ hi) :
    lo ≤ lerp2 u v a b c d ∧ lerp2 u v a b c d ≤ hi := by
  have key : ∀ {t p q : ℝ}, 0 ≤ t → t ≤ 1 → (lo ≤ p ∧ p ≤ hi) → (lo ≤ q ∧ q ≤ hi) → lo ≤ p + t * (q - p) ∧ p + t * (q - p) ≤ hi := by
    intro t p q h0 h1 hp hq
    have e : p + t * (q - p) = (1 - t) * p + t * q := by ring
    rw [e]
    constructor
    · nlinarith [mul_le_mul_of_nonneg_left hp.1 (sub_nonneg.2 h1), mul_le_mul_of_nonneg_left hq.1 h0]
    · nlinarith [mul_le_mul_of_nonneg_left hp.2 (sub_nonneg.2 h1), mul_le_mul_of_nonneg_left hq.2 h0]
  exact key hu hu1 (key hv hv1 ha hb) (key hv hv1 hc hd)

theorem lerp2_const (u v a : ℝ) : lerp2 u v a a a a = a := by unfold lerp2; ring

theorem sub_eq (c : ℝ) (i n : Nat) (hn : 0 < n) : sub c i n = centre c n i := by
  unfold sub centre
  have : (n : ℝ) ≠ 0 := by positivity
  field_simp
  ring

theorem fast_ok {psf : ℝ → ℝ} {size : ℝ} {src pix : ℝ × ℝ} {z : List (List ℝ)} {npts : Nat} (hn : 0 < npts)
    {S : ℝ → ℝ → ℝ} (hS : ∀ i j, i < npts → j < npts →
      bilinear (centre pix.2 npts j - 1) (centre pix.1 npts i - 1) z = .ok (S (centre pix.1 npts i) (centre pix.2 npts j))) :
    fast psf size src pix z npts = .ok (mean2 npts (fun i j =>
      psf (planeDist size src (centre pix.1 npts i) (centre pix.2 npts j) *
        (1 + S (centre pix.1 npts i) (centre pix.2 npts j))))) := by
  unfold fast
  have hin : ∀ i s, i < npts → loop (fun j s => do
      let t ← term psf size src (sub pix.1 i npts) (sub pix.2 j npts) z
      Res.ok (s + t)) 0 npts s = .ok (s + ∑ j ∈ Finset.range npts, psf (planeDist size src (centre pix.1 npts i) (centre pix.2 npts j) *
        (1 + S (centre pix.1 npts i) (centre pix.2 npts j)))) := by
    intro i s hi
    obtain ⟨s', g1, g2⟩ := loop_inv (lo := 0) (n := npts) (s := s)
      (body := fun j s => do
        let t ← term psf size src (sub pix.1 i npts) (sub pix.2 j npts) z
        Res.ok (s + t))
      (fun k w => w = s + ∑ j ∈ Finset.range k, psf (planeDist size src (centre pix.1 npts i) (centre pix.2 npts j) *
        (1 + S (centre pix.1 npts i) (centre pix.2 npts j)))) (by simp)
      (by
        rintro k w _ hk rfl
        rw [Nat.zero_add] at hk
        refine ⟨_, ?_, rfl⟩
        unfold term
        rw [sub_eq _ _ _ hn, sub_eq _ _ _ hn, hS i k hi hk, Res.bind_ok, Res.bind_ok, Finset.sum_range_succ]
        congr 1
        ring)
    rw [g1, g2, Nat.zero_add]
  obtain ⟨s', g1, g2⟩ := loop_inv (lo := 0) (n := npts) (s := (0 : ℝ))
    (body := fun i s => loop (fun j s => do
      let t ← term psf size src (sub pix.1 i npts) (sub pix.2 j npts) z
      Res.ok (s + t)) 0 npts s)
    (fun k w => w = ∑ i ∈ Finset.range k, ∑ j ∈ Finset.range npts, psf (planeDist size src (centre pix.1 npts i) (centre pix.2 npts j) *
        (1 + S (centre pix.1 npts i) (centre pix.2 npts j)))) (by simp)
    (by
      rintro k w _ hk rfl
      rw [Nat.zero_add] at hk
      exact ⟨_, hin k _ hk, by rw [Finset.sum_range_succ]⟩)
  rw [g1, Res.bind_ok, if_neg (by omega), g2, Nat.zero_add]
  unfold mean2
  rw [pow_two]

theorem mean2_between {n : Nat} (hn : 0 < n) {f : Nat → Nat → ℝ} {lo hi : ℝ} (h : ∀ i j, i < n → j < n → lo ≤ f i j ∧ f i j ≤ hi) :
    lo ≤ mean2 n f ∧ mean2 n f ≤ hi := by
  unfold mean2
  have hp : (0 : ℝ) < (n : ℝ) ^ 2 := by positivity
  have e : ∀ c : ℝ, ∑ i ∈ Finset.range n, ∑ j ∈ Finset.range n, c = c * (n : ℝ) ^ 2 := by
    intro c
    simp [Finset.sum_const, pow_two]
    ring
  constructor
  · rw [le_div_iff₀ hp, ← e lo]
    exact Finset.sum_le_sum fun i hi => Finset.sum_le_sum fun j hj =>
      (h i j (Finset.mem_range.1 hi) (Finset.mem_range.1 hj)).1
  · rw [div_le_iff₀ hp, ← e hi]
    exact Finset.sum_le_sum fun i hi => Finset.sum_le_sum fun j hj =>
      (h i j (Finset.mem_range.1 hi) (Finset.mem_range.1 hj)).2

/-! ### The map of offsets -/

theorem replicate_table (n2 n1 : Nat) : IsTable (List.replicate n2 (List.replicate n1 (0 : ℝ))) n2 n1 (fun _ _ => 0) := by
  refine ⟨by simp, fun i hi => ⟨List.replicate n1 0, ?_, by simp, fun j hj => ?_⟩⟩
  · simp [List.getElem?_replicate, hi]
  · simp [List.getElem?_replicate, hj]

theorem Spec.IsTable.congr {z : List (List ℝ)} {n2 n1 : Nat} {Z W : Nat → Nat → ℝ} (h : IsTable z n2 n1 Z)
    (he : ∀ i j, i < n2 → j < n1 → Z i j = W i j) : IsTable z n2 n1 W :=
  ⟨h.1, fun i hi => by
    obtain ⟨row, a, b, c⟩ := h.2 i hi
    exact ⟨row, a, b, fun j hj => by rw [c j hj, he i j hi hj]⟩⟩

theorem Spec.IsTable.set {z : List (List ℝ)} {n2 n1 : Nat} {Z : Nat → Nat → ℝ} (h : IsTable z n2 n1 Z) {i j : Nat} (hi : i < n2)
    (hj : j < n1) (a : ℝ) : ∃ z', (do
      let row ← vget z i
      let row ← vset row j a
      vset z i row) = Res.ok z' ∧ IsTable z' n2 n1 (fun i' j' => if i' = i ∧ j' = j then a else Z i' j') := by
  obtain ⟨row, h1, h2, h3⟩ := h.2 i hi
  have hv : vget z i = .ok row := by unfold vget; rw [h1]
  rw [hv, Res.bind_ok, vset_lt _ _ _ (by omega), Res.bind_ok, vset_lt _ _ _ (by rw [h.1]; exact hi)]
  refine ⟨_, rfl, by simpa using h.1, fun i' hi' => ?_⟩
  by_cases he : i' = i
  · subst he
    refine ⟨row.set j a, by rw [List.getElem?_set_self (by rw [h.1]; exact hi)], by simpa using h2, fun j' hj' => ?_⟩
    by_cases hjj : j' = j
    · subst hjj
      simp [List.getElem?_set_self (show j' < row.length by omega)]
    · rw [List.getElem?_set_ne (Ne.symm hjj), h3 j' hj']
      simp [hjj]
  · obtain ⟨row', g1, g2, g3⟩ := h.2 i' hi'
    refine ⟨row', by rw [List.getElem?_set_ne (Ne.symm he), g1], g2, fun j' hj' => ?_⟩
    rw [g3 j' hj']
    simp [he]

theorem offsetMap_ok (n1 n2 : Nat) (size : ℝ) (src : ℝ × ℝ) (angSep : Nat → ℝ) :
    ∃ z, offsetMap n1 n2 size src angSep = .ok z ∧
      IsTable z n2 n1 (fun i j => offsetOf size src i j (angSep (i * n1 + j))) := by
  unfold offsetMap
  obtain ⟨z, g1, g2⟩ := loop_inv (lo := 0) (n := n1 * n2) (s := List.replicate n2 (List.replicate n1 (0 : ℝ)))
    (body := fun j z => do
      let row ← vget z (j / n1)
      let row ← vset row (j % n1) (offsetOf size src (j / n1) (j % n1) (angSep j))
      vset z (j / n1) row)
    (fun k z => IsTable z n2 n1 (fun i j => if i * n1 + j < k then offsetOf size src i j (angSep (i * n1 + j)) else 0))
    ((replicate_table n2 n1).congr fun i j _ _ => by simp)
    (by
      intro k z _ hk hz
      rw [Nat.zero_add] at hk
      have h1 : 0 < n1 := Nat.pos_of_ne_zero fun h => by subst h; simp at hk
      have hd : k / n1 < n2 := Nat.div_lt_of_lt_mul hk
      have hm : k % n1 < n1 := Nat.mod_lt _ h1
      obtain ⟨z', e1, e2⟩ := hz.set hd hm (offsetOf size src (k / n1) (k % n1) (angSep k))
      refine ⟨z', e1, e2.congr fun i j hi hj => ?_⟩
      have hk' : k = k / n1 * n1 + k % n1 := by rw [Nat.mul_comm]; exact (Nat.div_add_mod k n1).symm
      by_cases hc : i = k / n1 ∧ j = k % n1
      · obtain ⟨rfl, rfl⟩ := hc
        rw [← hk']
        simp
      · simp only [if_neg hc]
        have hne : i * n1 + j ≠ k := by
          intro he
          rw [hk'] at he
          exact hc (idx_inj hj hm he)
        have : i * n1 + j < k + 1 ↔ i * n1 + j < k := by omega
        simp only [this])
  refine ⟨z, g1, g2.congr fun i j hi hj => ?_⟩
  have : i * n1 + j < 0 + n1 * n2 := by
    have := idx_lt hj hi
    rw [Nat.mul_comm n1 n2]; omega
  simp only [if_pos this]

end Verif.PsfInt
