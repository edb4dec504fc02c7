import Verif.HpxConv.Model
import Verif.HpxConv.Spec
import Verif.HpxMap.Props
import Mathlib.Algebra.Order.BigOperators.Group.List
import Mathlib.Algebra.BigOperators.Group.List.Basic
import Mathlib.Algebra.BigOperators.Ring.List
/-
Lemmas about the convolution of maps in equal-area pixels.
-/
set_option linter.unusedSectionVars false
set_option linter.unusedSimpArgs false
set_option linter.unusedVariables false
namespace Verif.HpxConv
open Spec HpxMap HpxMap.Spec Vec
variable {δ : Type}

/-! ### The pole -/

theorem setRing_eq (pre : List ℝ) (v : ℝ) (n k : Nat) (h : n ≤ k) :
    setRing pre.length n v (pre ++ List.replicate k 0) = .ok (pre ++ List.replicate n v ++ List.replicate (k - n) 0) := by
  unfold setRing
  have := loop_eq (body := fun i hp => vset hp i v)
    (fun i => pre ++ List.replicate (i - pre.length) v ++ List.replicate (k - (i - pre.length)) (0 : ℝ))
    (lo := pre.length) (n := n) (by
      intro i h1 h2
      obtain ⟨j, rfl⟩ := Nat.exists_eq_add_of_le h1
      rw [vset_lt _ _ _ (by simp; omega)]
      congr 1
      rw [show pre.length + j - pre.length = j by omega, show pre.length + j + 1 - pre.length = j + 1 by omega,
        List.set_append_right _ _ (by simp)]
      rw [show pre.length + j - (pre ++ List.replicate j v).length = 0 by simp,
        show k - j = (k - (j + 1)) + 1 by omega, List.replicate_succ, List.set_cons_zero, List.replicate_succ']
      simp)
  simpa using this

theorem ringValue_eq (t : Tools) (psf : Psf) {order ring start : Nat} (h : order + dOrder order ring ≤ t.maxOrder) :
    ringValue t psf order ring start = .ok (ringMean t psf order ring start) := by
  unfold ringValue
  simp only
  rw [if_neg (by omega)]
  congr 1
  unfold ringMean
  have hd : dOrder order ring = max 1 (min (13 - order) (6 - 2 * ring)) := max_comm _ _
  have h4 : ∀ d : Nat, 2 ^ d * 2 ^ d = 4 ^ d := fun d => by rw [← mul_pow]; rfl
  simp only [hd, h4, Nat.cast_pow, Nat.cast_ofNat, max_comm]
  rw [sum_val]
  simp only [List.length_map, List.length_range]
  congr 1
  refine Finset.sum_congr rfl fun i hi => ?_
  rw [val_map_range _ (Finset.mem_range.1 hi)]

theorem ringMean_nonneg (t : Tools) (psf : Psf) (order ring start : Nat) : 0 ≤ ringMean t psf order ring start := by
  unfold ringMean
  apply div_nonneg
  · exact Finset.sum_nonneg fun i _ => le_max_left _ _
  · positivity

theorem fillRings_eq (t : Tools) (psf : Psf) (order : Nat) (th : ℝ) (hm : ∀ r, order + dOrder order r ≤ t.maxOrder) :
    ∀ (vis rest : List Ring) (ring : Nat) (theta : ℝ) (pre : List ℝ) (k : Nat), Filled th theta vis →
      Contiguous pre.length vis → (vis.map (fun r => r.2.1)).sum ≤ k →
      fillRings t psf order th (vis ++ rest) ring theta (pre ++ List.replicate k 0) =
        .ok (pre ++ blocks t psf order ring vis ++ List.replicate (k - (vis.map (fun r => r.2.1)).sum) 0)
  | [], rest, ring, theta, pre, k, hf, _, _ => by
    cases hf with
    | stop h =>
      rw [fillRings.eq_def]
      simp only
      rw [if_neg (not_lt.2 h)]
      simp [blocks]
  | r :: vis, rest, ring, theta, pre, k, hf, hc, hk => by
    cases hf with
    | next h hf' =>
      obtain ⟨c1, c2⟩ := hc
      obtain ⟨start, n, th'⟩ := r
      simp only at c1 c2 hf'
      subst c1
      simp only [List.map_cons, List.sum_cons] at hk
      rw [fillRings.eq_def]
      simp only [List.cons_append]
      rw [if_pos h]
      rw [ringValue_eq t psf (hm ring)]
      simp only [Res.bind]
      rw [setRing_eq pre _ n k (by omega)]
      simp only [Res.bind]
      rw [fillRings_eq t psf order th hm vis rest (ring + 1) th' (pre ++ List.replicate n (ringMean t psf order ring pre.length))
        (k - n) hf' (by simpa using c2) (by omega)]
      simp only [blocks, List.map_cons, List.sum_cons, List.append_assoc]
      rw [show k - n - (vis.map (fun r => r.2.1)).sum = k - (n + (vis.map (fun r => r.2.1)).sum) by omega]

theorem blocks_nonneg (t : Tools) (psf : Psf) (order : Nat) : ∀ (k : Nat) (l : List Ring), ∀ v ∈ blocks t psf order k l, 0 ≤ v
  | _, [], v, h => by simp [blocks] at h
  | k, r :: l, v, h => by
    rw [blocks, List.mem_append] at h
    rcases h with h | h
    · rw [List.eq_of_mem_replicate h]; exact ringMean_nonneg _ _ _ _ _
    · exact blocks_nonneg t psf order (k + 1) l v h

theorem fillRings_ub (t : Tools) (psf : Psf) (order : Nat) (th : ℝ) (hm : ∀ r, order + dOrder order r ≤ t.maxOrder) :
    ∀ (vis : List Ring) (ring : Nat) (theta : ℝ) (pre : List ℝ) (k : Nat), theta < th → (∀ r ∈ vis, r.2.2 < th) →
      Contiguous pre.length vis → (vis.map (fun r => r.2.1)).sum ≤ k →
      fillRings t psf order th vis ring theta (pre ++ List.replicate k 0) = .ub
  | [], ring, theta, pre, k, h, _, _, _ => by
    rw [fillRings.eq_def]
    simp only
    rw [if_pos h]
  | r :: vis, ring, theta, pre, k, h, hr, hc, hk => by
    obtain ⟨c1, c2⟩ := hc
    obtain ⟨start, n, th'⟩ := r
    simp only at c1 c2
    subst c1
    simp only [List.map_cons, List.sum_cons] at hk
    rw [fillRings.eq_def]
    simp only
    rw [if_pos h, ringValue_eq t psf (hm ring)]
    simp only [Res.bind]
    rw [setRing_eq pre _ n k (by omega)]
    simp only [Res.bind]
    exact fillRings_ub t psf order th hm vis (ring + 1) th' (pre ++ List.replicate n (ringMean t psf order ring pre.length))
        (k - n) (hr _ List.mem_cons_self) (fun r h => hr r (List.mem_cons_of_mem _ h)) (by simpa using c2) (by omega)

/-! ### Small values -/

theorem minimum_le : ∀ {l : List ℝ} {v : ℝ}, v ∈ l → minimum l ≤ v
  | [x], v, h => by simp at h; subst h; exact le_rfl
  | x :: y :: l, v, h => by
    rw [minimum]
    rcases List.mem_cons.1 h with rfl | h
    · exact min_le_left _ _
    · exact (min_le_right _ _).trans (minimum_le h)

theorem minimum_mem : ∀ {l : List ℝ}, l ≠ [] → minimum l ∈ l
  | [x], _ => by simp [minimum]
  | x :: y :: l, _ => by
    rw [minimum]
    rcases min_choice x (minimum (y :: l)) with h | h
    · rw [h]; exact List.mem_cons_self
    · rw [h]; exact List.mem_cons_of_mem _ (minimum_mem (by simp))

theorem clean_nonneg {l : List ℝ} : ∀ v ∈ clean l, 0 ≤ v := by
  intro v hv
  unfold clean at hv
  split at hv
  · obtain ⟨w, hw, rfl⟩ := List.mem_map.1 hv
    split
    · exact le_rfl
    · rename_i h
      exact (abs_nonneg _).trans (not_lt.1 h)
  · rename_i h
    exact (not_lt.1 h).trans (minimum_le hv)

theorem clean_length (l : List ℝ) : (clean l).length = l.length := by
  unfold clean; split <;> simp

theorem clean_of_nonneg {l : List ℝ} (h : ∀ v ∈ l, 0 ≤ v) : clean l = l := by
  unfold clean
  rw [if_neg]
  rw [not_lt]
  by_cases c : l = []
  · rw [c]; exact le_rfl
  · exact h _ (minimum_mem c)

/-- What is removed. -/
noncomputable def removed (l : List ℝ) : List ℝ :=
  open Classical in if minimum l < 0 then l.filter (fun v => decide (v < |minimum l|)) else []

theorem drop_sum (c : ℝ) : ∀ l : List ℝ, (l.map (fun v => open Classical in if v < c then 0 else v)).sum =
    l.sum - (l.filter (fun v => open Classical in decide (v < c))).sum
  | [] => by simp
  | x :: l => by
    rw [List.map_cons, List.sum_cons, drop_sum c l, List.sum_cons, List.filter_cons]
    by_cases h : x < c
    · simp only [h, if_true, decide_true, List.sum_cons]; ring
    · simp only [h, if_false, decide_false, Bool.false_eq_true]; ring

theorem clean_sum (l : List ℝ) : (clean l).sum = l.sum - (removed l).sum := by
  unfold clean removed
  split
  · exact drop_sum _ l
  · simp

/-! ### Averages -/

theorem sum_scale (c : ℝ) : ∀ l : List ℝ, (l.map (fun v => v * c)).sum = l.sum * c
  | [] => by simp
  | x :: l => by rw [List.map_cons, List.sum_cons, sum_scale c l, List.sum_cons]; ring

theorem scaled_sum {a b : List ℝ} (hl : b.length = a.length) (hb : average b ≠ 0) :
    (b.map (fun v => v * (average a / average b))).sum = a.sum := by
  rw [sum_scale]
  unfold average at *
  have h0 : (b.length : ℝ) ≠ 0 := by
    intro h; rw [h, div_zero] at hb; exact hb rfl
  have hs : b.sum ≠ 0 := by
    intro h; rw [h, zero_div] at hb; exact hb rfl
  rw [← hl]
  field_simp

theorem sum_nonneg {l : List ℝ} (h : ∀ v ∈ l, 0 ≤ v) : 0 ≤ l.sum := List.sum_nonneg h

theorem average_nonneg {l : List ℝ} (h : ∀ v ∈ l, 0 ≤ v) : 0 ≤ average l := div_nonneg (sum_nonneg h) (Nat.cast_nonneg _)

theorem convolve_length {t : Tools} (ht : Regular t) {n : Nat} {f p o : List ℝ} (h : convolve t n f p = .ok o) :
    o.length = pixels n := by
  unfold convolve at h
  split at h
  · cases h; simp [pixels]
  · simp only at h
    split at h
    · cases h
    · cases h
      rw [clean_length, List.length_map, ht.whole]

theorem convolve_nonneg {t : Tools} {n : Nat} {f p o : List ℝ} (h : convolve t n f p = .ok o) : ∀ v ∈ o, 0 ≤ v := by
  unfold convolve at h
  split at h
  · cases h
    intro v hv
    rw [List.eq_of_mem_replicate hv]
  · simp only at h
    split at h
    · cases h
    · cases h
      exact clean_nonneg

theorem average_zero {f : List ℝ} (h : average f = 0) : f.sum = 0 := by
  unfold average at h
  rcases div_eq_zero_iff.1 h with h | h
  · exact h
  · have : f = [] := List.length_eq_zero_iff.1 (by exact_mod_cast h)
    rw [this]; rfl

theorem convolve_sum {t : Tools} (ht : Regular t) (hp : Positive t) {n : Nat} {f p o : List ℝ} (hl : f.length = pixels n)
    (hf : ∀ v ∈ f, 0 ≤ v) (hq : ∀ v ∈ p, 0 ≤ v) (h : convolve t n f p = .ok o) : o.sum = f.sum := by
  unfold convolve at h
  split at h
  · rename_i h0
    cases h
    rw [average_zero h0]; simp
  · simp only at h
    split at h
    · cases h
    · rename_i h1 h2
      cases h
      rw [clean_of_nonneg, scaled_sum (by rw [ht.whole, hl]) h2]
      intro v hv
      obtain ⟨w, hw, rfl⟩ := List.mem_map.1 hv
      exact mul_nonneg (hp n f p hf hq w hw) (div_nonneg (average_nonneg hf) (average_nonneg (hp n f p hf hq)))

/-! ### Finer and coarser maps -/

theorem pixels_two (n : Nat) : pixels (2 * n) = 4 * pixels n := by unfold pixels; ring

theorem upgrade_eq {t : Tools} (ht : Regular t) {n : Nat} (hn : 0 < n) {s : Bool} {l : List ℝ} (hl : l.length = pixels n) :
    upgrade t n s l = .ok ((List.range (pixels (2 * n))).map (fun j => val l (t.parent n s j))) := by
  unfold upgrade
  apply mapM_ok
  intro j hj
  rw [List.mem_range] at hj
  exact vget_val (by rw [hl]; exact ht.inside n s j hn hj)

theorem nograde_eq {t : Tools} (ht : Regular t) {n : Nat} (hn : 0 < n) {s : Bool} {l : List ℝ} (hl : l.length = pixels n) :
    nograde t n s l = .ok ((List.range (pixels n)).map (fun i => val l (if s then t.swap n i else i))) := by
  unfold nograde
  apply mapM_ok
  intro j hj
  apply vget_val
  rw [hl]
  split
  · have := (ht.perm n hn).mem_iff.1 (List.mem_map.2 ⟨j, hj, rfl⟩)
    exact List.mem_range.1 this
  · exact List.mem_range.1 hj

theorem degrade_eq {t : Tools} (ht : Regular t) {n : Nat} (hn : 0 < n) {l : List ℝ} (hl : l.length = pixels (2 * n)) :
    degrade t n l = .ok ((List.range (pixels n)).map (fun i =>
      (((List.range (pixels (2 * n))).filter (fun j => t.parent n false j == i)).map (val l)).sum / 4)) := by
  unfold degrade
  apply mapM_ok
  intro i hi
  rw [List.mem_range] at hi
  have e : ((List.range (12 * (2 * n) * (2 * n))).filter (fun j => t.parent n false j == i)).mapM (vget l) =
      .ok (((List.range (pixels (2 * n))).filter (fun j => t.parent n false j == i)).map (val l)) := by
    apply mapM_ok
    intro j hj
    exact vget_val (by rw [hl]; exact List.mem_range.1 (List.mem_filter.1 hj).1)
  rw [e, Res.bind_ok]
  unfold average
  rw [List.length_map, ht.four n false i hn hi]
  norm_num

theorem list_sum_range (f : Nat → ℝ) (n : Nat) : ((List.range n).map f).sum = ∑ i ∈ Finset.range n, f i := by
  rw [sum_val]
  simp only [List.length_map, List.length_range]
  exact Finset.sum_congr rfl fun i hi => val_map_range _ (Finset.mem_range.1 hi)

theorem filter_sum (f : Nat → ℝ) (p : Nat → Bool) (n : Nat) : (((List.range n).filter p).map f).sum =
    ∑ i ∈ Finset.range n, if p i then f i else 0 := by
  induction n with
  | zero => simp
  | succ n ih =>
    rw [List.range_succ, List.filter_append, List.map_append, List.sum_append, ih, Finset.sum_range_succ]
    congr 1
    cases h : p n <;> simp [h]

theorem filter_card (p : Nat → Bool) (n : Nat) : (((List.range n).filter p).length : ℝ) =
    ∑ i ∈ Finset.range n, if p i then (1 : ℝ) else 0 := by
  rw [← filter_sum (fun _ => 1) p n]
  simp

/-- A finer map has four times the sum. -/
theorem upgrade_sum {t : Tools} (ht : Regular t) {n : Nat} (hn : 0 < n) {s : Bool} {l : List ℝ} (hl : l.length = pixels n) :
    ((List.range (pixels (2 * n))).map (fun j => val l (t.parent n s j))).sum = 4 * l.sum := by
  rw [list_sum_range, sum_val, hl]
  have : ∀ j ∈ Finset.range (pixels (2 * n)), val l (t.parent n s j) =
      ∑ i ∈ Finset.range (pixels n), if t.parent n s j == i then val l i else 0 := by
    intro j hj
    have hp := ht.inside n s j hn (Finset.mem_range.1 hj)
    rw [Finset.sum_eq_single (t.parent n s j)]
    · simp
    · intro i _ hne
      rw [if_neg]
      simpa using (Ne.symm hne)
    · intro h
      exact absurd (Finset.mem_range.2 hp) h
  rw [Finset.sum_congr rfl this, Finset.sum_comm, Finset.mul_sum]
  refine Finset.sum_congr rfl fun i hi => ?_
  have h4 := ht.four n s i hn (Finset.mem_range.1 hi)
  have hc := filter_card (fun j => t.parent n s j == i) (pixels (2 * n))
  rw [h4] at hc
  have : ∀ j ∈ Finset.range (pixels (2 * n)), (if t.parent n s j == i then val l i else 0) =
      (if t.parent n s j == i then (1 : ℝ) else 0) * val l i := by
    intro j _
    split <;> simp
  rw [Finset.sum_congr rfl this, ← Finset.sum_mul, ← hc]
  norm_num

/-- A coarser map has a quarter of the sum. -/
theorem degrade_sum {t : Tools} (ht : Regular t) {n : Nat} (hn : 0 < n) {l : List ℝ} (hl : l.length = pixels (2 * n)) :
    ((List.range (pixels n)).map (fun i =>
      (((List.range (pixels (2 * n))).filter (fun j => t.parent n false j == i)).map (val l)).sum / 4)).sum = l.sum / 4 := by
  rw [list_sum_range, sum_val, hl, ← Finset.sum_div]
  congr 1
  rw [Finset.sum_congr rfl (fun i _ => filter_sum (val l) (fun j => t.parent n false j == i) (pixels (2 * n)))]
  rw [Finset.sum_comm]
  refine Finset.sum_congr rfl fun j hj => ?_
  have hp := ht.inside n false j hn (Finset.mem_range.1 hj)
  rw [Finset.sum_eq_single (t.parent n false j)]
  · simp
  · intro i _ hne
    rw [if_neg]
    simpa using (Ne.symm hne)
  · intro h
    exact absurd (Finset.mem_range.2 hp) h

theorem nograde_sum {t : Tools} (ht : Regular t) {n : Nat} (hn : 0 < n) {s : Bool} {l : List ℝ} (hl : l.length = pixels n) :
    ((List.range (pixels n)).map (fun i => val l (if s then t.swap n i else i))).sum = l.sum := by
  cases s
  · simp only [Bool.false_eq_true, if_false]
    rw [list_sum_range, sum_val, hl]
  · simp only [if_true]
    have h1 := ((ht.perm n hn).map (val l)).sum_eq
    rw [List.map_map] at h1
    rw [show ((List.range (pixels n)).map (fun i => val l (t.swap n i))) = (List.range (pixels n)).map (val l ∘ t.swap n) from rfl,
      h1, list_sum_range, sum_val, hl]

theorem val_nonneg {l : List ℝ} (h : ∀ v ∈ l, 0 ≤ v) (k : Nat) : 0 ≤ val l k := by
  rcases Nat.lt_or_ge k l.length with hk | hk
  · exact h _ (val_mem hk)
  · rw [val_ge hk]

end Verif.HpxConv
