import Verif.MapInt.Lemmas
import Mathlib.Algebra.Order.BigOperators.Ring.Finset
/-
Loops over the blocks of a map.
-/
set_option linter.unusedSectionVars false
set_option linter.unusedSimpArgs false
set_option linter.unusedVariables false
namespace Verif.MapInt
open Verif.MapInt.Spec
open scoped BigOperators

/-! ### Sizes -/

theorem coarse_mul (n : Nat) {f : Nat} (hf : 0 < f) : n ≤ coarse n f * f ∧ coarse n f * f < n + f := by
  have hm : n % f < f := Nat.mod_lt _ hf
  have hd := Nat.div_add_mod n f
  unfold coarse
  simp only []
  by_cases h0 : f - n % f = f
  · rw [if_pos h0, Nat.add_zero]
    have : n % f = 0 := by omega
    have e : n / f * f = n := by rw [Nat.mul_comm]; omega
    omega
  · rw [if_neg h0]
    have e : n + (f - n % f) = (n / f + 1) * f := by
      rw [Nat.add_mul, Nat.one_mul, Nat.mul_comm (n / f)]; omega
    rw [e, Nat.mul_div_cancel _ hf, ← e]
    omega

theorem div_coarse {n f i : Nat} (hf : 0 < f) (hi : i < n) : i / f < coarse n f := by
  rw [Nat.div_lt_iff_lt_mul hf]
  exact lt_of_lt_of_le hi (coarse_mul n hf).1

theorem div_eq_iff {f i ii : Nat} (hf : 0 < f) : i / f = ii ↔ ii * f ≤ i ∧ i < (ii + 1) * f := by
  rw [← Nat.le_div_iff_mul_le hf, ← Nat.div_lt_iff_lt_mul hf]
  omega

/-- A sum over all pixels restricted to a block. -/
theorem block_eq (g : Nat → Nat → ℝ) {f : Nat} (hf : 0 < f) (n1 n2 ii jj : Nat) :
    ∑ i ∈ Finset.range n1, ∑ j ∈ Finset.range n2, (if jj = j / f ∧ ii = i / f then g i j else 0) = block g f n1 n2 ii jj := by
  unfold block
  rw [Finset.sum_filter]
  refine Finset.sum_congr rfl fun i _ => ?_
  by_cases hi : ii * f ≤ i ∧ i < (ii + 1) * f
  · rw [if_pos hi, Finset.sum_filter]
    refine Finset.sum_congr rfl fun j _ => ?_
    have e := (div_eq_iff hf).2 hi
    by_cases hj : jj * f ≤ j ∧ j < (jj + 1) * f
    · rw [if_pos hj, if_pos ⟨((div_eq_iff hf).2 hj).symm, e.symm⟩]
    · rw [if_neg hj, if_neg fun h => hj ((div_eq_iff hf).1 h.1.symm)]
  · rw [if_neg hi]
    refine Finset.sum_eq_zero fun j _ => ?_
    rw [if_neg fun h => hi ((div_eq_iff hf).1 h.2.symm)]

/-- The blocks cover the map: the sum of their sums is the sum over the map. -/
theorem sum_blocks (g : Nat → Nat → ℝ) {f : Nat} (hf : 0 < f) (n1 n2 : Nat) :
    ∑ jj ∈ Finset.range (coarse n2 f), ∑ ii ∈ Finset.range (coarse n1 f), block g f n1 n2 ii jj =
      ∑ j ∈ Finset.range n2, ∑ i ∈ Finset.range n1, g i j := by
  simp only [← block_eq g hf]
  have h1 : ∀ jj ii : Nat, ∑ i ∈ Finset.range n1, ∑ j ∈ Finset.range n2, (if jj = j / f ∧ ii = i / f then g i j else 0) =
      ∑ j ∈ Finset.range n2, ∑ i ∈ Finset.range n1, (if jj = j / f ∧ ii = i / f then g i j else 0) :=
    fun jj ii => Finset.sum_comm
  simp only [h1]
  have h2 : ∀ jj : Nat, ∑ ii ∈ Finset.range (coarse n1 f), ∑ j ∈ Finset.range n2, ∑ i ∈ Finset.range n1,
        (if jj = j / f ∧ ii = i / f then g i j else 0) =
      ∑ j ∈ Finset.range n2, ∑ i ∈ Finset.range n1, (if jj = j / f then g i j else 0) := by
    intro jj
    rw [Finset.sum_comm]
    refine Finset.sum_congr rfl fun j _ => ?_
    rw [Finset.sum_comm]
    refine Finset.sum_congr rfl fun i hi => ?_
    have hi := Finset.mem_range.1 hi
    rw [Finset.sum_eq_single (i / f)]
    · simp
    · intro b _ hb; rw [if_neg fun h => hb h.2]
    · intro h; exact absurd (Finset.mem_range.2 (div_coarse hf hi)) h
  simp only [h2]
  rw [Finset.sum_comm]
  refine Finset.sum_congr rfl fun j hj => ?_
  have hj := Finset.mem_range.1 hj
  rw [Finset.sum_comm]
  refine Finset.sum_congr rfl fun i _ => ?_
  rw [Finset.sum_eq_single (j / f)]
  · simp
  · intro b _ hb; rw [if_neg hb]
  · intro h; exact absurd (Finset.mem_range.2 (div_coarse hf hj)) h

/-! ### Loops -/

theorem add2_eq {p : Plane} {n1 n2 : Nat} (h : Shape p n1 n2) {j i : Nat} (hj : j < n2) (hi : i < n1) (v : ℝ) :
    ∃ p', add2 p j i v = .ok p' ∧ Shape p' n1 n2 ∧
      ∀ j' i', pix p' j' i' = pix p j' i' + if j' = j ∧ i' = i then v else 0 := by
  obtain ⟨row, h1, h2, h3, h4⟩ := h.row hj
  refine ⟨p.set j (row.set i (el row i + v)), ?_, h.set (by simp [h3]), fun j' i' => ?_⟩
  · unfold add2
    rw [h2, Res.bind_ok, vget_el (by omega), Res.bind_ok, vset_lt _ _ _ (by omega), Res.bind_ok,
      vset_lt _ _ _ (by rw [h.1]; exact hj)]
  · rw [pix_set h hj]
    by_cases hc : j' = j
    · subst hc
      rw [if_pos rfl, el_set (by omega), h4]
      by_cases hc2 : i' = i
      · subst hc2; simp
      · simp [hc2]
    · simp [hc]

theorem zeros_shape (n1 n2 : Nat) : Shape (zeros n1 n2) n1 n2 :=
  ⟨by simp [zeros], fun row hr => by rw [List.eq_of_mem_replicate hr]; simp⟩

theorem zeros_pix (n1 n2 j i : Nat) : pix (zeros n1 n2) j i = 0 := by
  unfold pix zeros
  rw [List.getElem?_replicate]
  split
  · simp only [Option.getD_some]
    rw [List.getElem?_replicate]
    split <;> rfl
  · rfl

/-- Two loops that add `g i j` to a pixel of the block of `i` and `j`. -/
theorem accumulate {body : Nat → Nat → Plane → Res Plane} {n1 n2 f : Nat} (hf : 0 < f) (g : Nat → Nat → ℝ)
    (hb : ∀ i j p, i < n1 → j < n2 → body i j p = add2 p (j / f) (i / f) (g i j)) :
    ∃ p, loop (fun i p => loop (body i) 0 n2 p) 0 n1 (zeros (coarse n1 f) (coarse n2 f)) = .ok p ∧
      Shape p (coarse n1 f) (coarse n2 f) ∧ ∀ ii jj, pix p jj ii = block g f n1 n2 ii jj := by
  obtain ⟨p, h1, h2, h3⟩ := loop_inv (body := fun i p => loop (body i) 0 n2 p) (lo := 0) (n := n1)
    (s := zeros (coarse n1 f) (coarse n2 f))
    (fun I p => Shape p (coarse n1 f) (coarse n2 f) ∧ ∀ ii jj, pix p jj ii =
      ∑ i ∈ Finset.range I, ∑ j ∈ Finset.range n2, if jj = j / f ∧ ii = i / f then g i j else 0)
    ⟨zeros_shape _ _, fun ii jj => by rw [zeros_pix]; simp⟩ (by
      rintro i p - hi ⟨hs, hp⟩
      rw [Nat.zero_add] at hi
      obtain ⟨p', g1, g2, g3⟩ := loop_inv (body := body i) (lo := 0) (n := n2) (s := p)
        (fun J q => Shape q (coarse n1 f) (coarse n2 f) ∧ ∀ ii jj, pix q jj ii =
          pix p jj ii + ∑ j ∈ Finset.range J, if jj = j / f ∧ ii = i / f then g i j else 0)
        ⟨hs, fun ii jj => by simp⟩ (by
          rintro j q - hj ⟨hs', hq⟩
          rw [Nat.zero_add] at hj
          obtain ⟨q', e1, e2, e3⟩ := add2_eq hs' (div_coarse hf hj) (div_coarse hf hi) (g i j)
          refine ⟨q', (hb i j q hi hj).trans e1, e2, fun ii jj => ?_⟩
          rw [e3, hq, Finset.sum_range_succ, add_assoc])
      refine ⟨p', g1, g2, fun ii jj => ?_⟩
      rw [g3, hp, Finset.sum_range_succ, Nat.zero_add])
  refine ⟨p, h1, h2, fun ii jj => ?_⟩
  rw [h3, Nat.zero_add, block_eq g hf]

theorem coarseAngles_eq {sa : Plane} {n1 n2 f : Nat} (hf : 0 < f) (hs : Shape sa n2 n1) :
    ∃ w, coarseAngles sa n1 n2 f = .ok w ∧ Shape w (coarse n1 f) (coarse n2 f) ∧
      ∀ ii jj, pix w jj ii = block (fun i j => pix sa i j) f n1 n2 ii jj := by
  unfold coarseAngles
  refine accumulate hf (fun i j => pix sa i j) fun i j p hi hj => ?_
  obtain ⟨row, -, h1, h2, h3⟩ := hs.row hi
  rw [h1, Res.bind_ok, vget_el (by omega), Res.bind_ok, h3]

theorem coarsePlane_sum {sa p : Plane} {n1 n2 f : Nat} (hf : 0 < f) (hp : Shape p n1 n2) :
    ∃ q, coarsePlane sa p n1 n2 f false = .ok q ∧ Shape q (coarse n1 f) (coarse n2 f) ∧
      ∀ ii jj, pix q jj ii = block (fun i j => pix p j i) f n1 n2 ii jj := by
  unfold coarsePlane
  refine accumulate hf (fun i j => pix p j i) fun i j q hi hj => ?_
  obtain ⟨row, -, h1, h2, h3⟩ := hp.row hj
  rw [h1, Res.bind_ok, vget_el (by omega), Res.bind_ok, if_neg (by simp), h3]

theorem coarsePlane_avg {sa p : Plane} {n1 n2 f : Nat} (hf : 0 < f) (hs : Shape sa n2 n1) (hp : Shape p n1 n2) :
    ∃ q, coarsePlane sa p n1 n2 f true = .ok q ∧ Shape q (coarse n1 f) (coarse n2 f) ∧
      ∀ ii jj, pix q jj ii = block (fun i j => pix p j i * pix sa i j) f n1 n2 ii jj := by
  unfold coarsePlane
  refine accumulate hf (fun i j => pix p j i * pix sa i j) fun i j q hi hj => ?_
  obtain ⟨row, -, h1, h2, h3⟩ := hp.row hj
  obtain ⟨sr, -, g1, g2, g3⟩ := hs.row hi
  rw [h1, Res.bind_ok, vget_el (by omega), Res.bind_ok, if_pos rfl, g1, Res.bind_ok, vget_el (by omega), Res.bind_ok, h3, g3]

theorem divide_ok {a b : ℝ} (h : b ≠ 0) : divide a b = .ok (a / b) := by unfold divide; rw [if_neg h]

theorem average_eq {p w : Plane} {n1 n2 : Nat} (hp : Shape p n1 n2) (hw : Shape w n1 n2)
    (hne : ∀ jj < n2, ∀ ii < n1, pix w jj ii ≠ 0) :
    ∃ q, average p w n1 n2 = .ok q ∧ Shape q n1 n2 ∧ ∀ jj < n2, ∀ ii < n1, pix q jj ii = pix p jj ii / pix w jj ii := by
  unfold average
  obtain ⟨q, h1, h2, h3⟩ := loop_inv (body := fun ii p => loop (fun jj p => do
      let row ← vget p jj
      let v ← vget row ii
      let wr ← vget w jj
      let s ← vget wr ii
      let q ← divide v s
      let row' ← vset row ii q
      vset p jj row') 0 n2 p) (lo := 0) (n := n1) (s := p)
    (fun I q => Shape q n1 n2 ∧ ∀ jj < n2, ∀ ii, pix q jj ii = if ii < I then pix p jj ii / pix w jj ii else pix p jj ii)
    ⟨hp, fun jj _ ii => by rw [if_neg (by omega)]⟩ (by
      rintro I q - hI ⟨hs, hq⟩
      rw [Nat.zero_add] at hI
      obtain ⟨q', g1, g2, g3⟩ := loop_inv (body := fun jj p => do
          let row ← vget p jj
          let v ← vget row I
          let wr ← vget w jj
          let s ← vget wr I
          let q ← divide v s
          let row' ← vset row I q
          vset p jj row') (lo := 0) (n := n2) (s := q)
        (fun J r => Shape r n1 n2 ∧ ∀ jj < n2, ∀ ii, pix r jj ii =
          if ii = I ∧ jj < J then pix p jj ii / pix w jj ii else pix q jj ii)
        ⟨hs, fun jj _ ii => by rw [if_neg (by omega)]⟩ (by
          rintro J r - hJ ⟨hs', hr⟩
          rw [Nat.zero_add] at hJ
          obtain ⟨row, -, a1, a2, a3⟩ := hs'.row hJ
          obtain ⟨wr, -, b1, b2, b3⟩ := hw.row hJ
          have hv : el row I = pix p J I := by
            rw [← a3, hr J hJ I, if_neg (by omega), hq J hJ I, if_neg (by omega)]
          refine ⟨r.set J (row.set I (pix p J I / pix w J I)), ?_, hs'.set (by simp [a2]), fun jj hjj ii => ?_⟩
          · rw [a1, Res.bind_ok, vget_el (by omega), Res.bind_ok, b1, Res.bind_ok, vget_el (by omega), Res.bind_ok,
              ← b3, divide_ok (hne J hJ I hI), Res.bind_ok, vset_lt _ _ _ (by omega), Res.bind_ok,
              vset_lt _ _ _ (by rw [hs'.1]; exact hJ), hv]
          · rw [pix_set hs' hJ]
            by_cases hc : jj = J
            · subst hc
              rw [if_pos rfl, el_set (by omega)]
              by_cases hc2 : ii = I
              · subst hc2
                rw [if_pos rfl, if_pos ⟨rfl, by omega⟩]
              · rw [if_neg hc2, ← a3, hr jj hjj, if_neg (by omega), if_neg (by omega)]
            · rw [if_neg hc, hr jj hjj]
              by_cases hc2 : ii = I ∧ jj < J
              · rw [if_pos hc2, if_pos (by omega)]
              · rw [if_neg hc2, if_neg (by omega)])
      refine ⟨q', g1, g2, fun jj hjj ii => ?_⟩
      rw [g3 jj hjj, hq jj hjj]
      by_cases hc : ii = I
      · rw [if_pos ⟨hc, by omega⟩, if_pos (by omega)]
      · rw [if_neg (by omega)]
        by_cases hc2 : ii < I
        · rw [if_pos hc2, if_pos (by omega)]
        · rw [if_neg hc2, if_neg (by omega)])
  refine ⟨q, h1, h2, fun jj hjj ii hii => ?_⟩
  rw [h3 jj hjj, if_pos (by omega)]

/-- The loop over the planes. -/
theorem planes_loop {image : List Plane} {n : Nat} (hl : image.length = n) (step : Plane → Res Plane) (F : Nat → Plane)
    (h : ∀ k < n, ∀ p, image[k]? = some p → step p = .ok (F k)) :
    ∃ im, loop (fun k im => do
      let p ← vget image k
      let q ← step p
      vset im k q) 0 n image = .ok im ∧ im.length = n ∧ ∀ k < n, im[k]? = some (F k) := by
  obtain ⟨im, h1, h2, h3⟩ := loop_inv (body := fun k im => do
      let p ← vget image k
      let q ← step p
      vset im k q) (lo := 0) (n := n) (s := image)
    (fun K im => im.length = n ∧ ∀ k < K, im[k]? = some (F k)) ⟨hl, fun k hk => by omega⟩ (by
      rintro K im - hK ⟨g1, g2⟩
      rw [Nat.zero_add] at hK
      refine ⟨im.set K (F K), ?_, by simp [g1], fun k hk => ?_⟩
      · rw [vget_lt _ _ (by omega), Res.bind_ok, h K hK _ (List.getElem?_eq_getElem (by omega)), Res.bind_ok,
          vset_lt _ _ _ (by omega)]
      · by_cases hc : k = K
        · subst hc; rw [List.getElem?_set_self (by omega)]
        · rw [List.getElem?_set_ne (by omega), g2 k (by omega)])
  exact ⟨im, h1, h2, fun k hk => h3 k (by omega)⟩

end Verif.MapInt
