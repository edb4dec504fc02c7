import Verif.Vec
import Verif.DiffMap.Model
import Verif.DiffMap.Spec
import Verif.MapInt.Lemmas3
import Mathlib.Tactic.Linarith
import Mathlib.Tactic.FieldSimp
import Mathlib.Tactic.Ring
import Mathlib.Algebra.BigOperators.Intervals
import Mathlib.Algebra.BigOperators.Ring.Finset
import Mathlib.Algebra.BigOperators.Field
set_option linter.unusedSectionVars false
set_option linter.unusedSimpArgs false
set_option linter.unusedVariables false
/-
Lemmas for the map of a diffuse source.
-/
namespace Verif.DiffMap
open Verif Verif.Vec Real Spec

/-- A loop that adds to positions of a vector. -/
theorem loop_acc {body : Nat → List ℝ → Res (List ℝ)} {lo n L : Nat} {m : List ℝ} (g : Nat → Nat) (v : Nat → ℝ) (hm : m.length = L)
    (hb : ∀ i w, lo ≤ i → i < lo + n → w.length = L → g i < L ∧ body i w = .ok (w.set (g i) (val w (g i) + v i))) :
    ∃ w, loop body lo n m = .ok w ∧ w.length = L ∧ ∀ a, val w a = val m a + ∑ i ∈ Finset.range n, if g (lo + i) = a then v (lo + i) else 0 := by
  obtain ⟨w, h1, h2, h3⟩ := loop_inv (body := body) (lo := lo) (n := n) (s := m)
    (fun k w => w.length = L ∧ ∀ a, val w a = val m a + ∑ i ∈ Finset.range (k - lo), if g (lo + i) = a then v (lo + i) else 0)
    ⟨hm, fun a => by simp⟩
    (by
      rintro k w hk hk2 ⟨c1, c2⟩
      obtain ⟨d1, d2⟩ := hb k w hk hk2 c1
      refine ⟨_, d2, by simpa using c1, fun a => ?_⟩
      rw [val_set (by omega), show k + 1 - lo = (k - lo) + 1 by omega, Finset.sum_range_succ, show lo + (k - lo) = k by omega]
      by_cases ha : a = g k
      · subst ha
        rw [if_pos rfl, if_pos rfl, c2, add_assoc]
      · rw [if_neg ha, if_neg (Ne.symm ha), add_zero, c2])
  refine ⟨w, h1, h2, fun a => ?_⟩
  rw [h3, show lo + n - lo = n by omega]

theorem vadd_ok {m : List ℝ} {a : Nat} (h : a < m.length) (x : ℝ) :
    (do
      let v ← vget m a
      vset m a (v + x)) = Res.ok (m.set a (val m a + x)) := by
  rw [vget_val h, Res.bind_ok, vset_lt _ _ _ h]

/-- The numbers whose quotient is `p`. -/
theorem sum_div_eq (c r p : Nat) (hr : 0 < r) (f : Nat → ℝ) :
    (∑ i ∈ Finset.range c, if i / r = p then f i else 0) = ∑ t ∈ Finset.range r, if r * p + t < c then f (r * p + t) else 0 := by
  have h1 : (∑ t ∈ Finset.range r, if r * p + t < c then f (r * p + t) else 0) =
      ∑ i ∈ Finset.Ico (r * p) (r * p + r), if i < c then f i else 0 := by
    rw [Finset.sum_Ico_eq_sum_range]
    congr 1
    congr 1
    omega
  rw [h1, ← Finset.sum_filter, ← Finset.sum_filter]
  refine Finset.sum_congr ?_ fun _ _ => rfl
  ext i
  simp only [Finset.mem_filter, Finset.mem_range, Finset.mem_Ico]
  have hd : i / r = p ↔ r * p ≤ i ∧ i < r * p + r := by
    rw [Nat.div_eq_iff hr]
    have : p * r = r * p := Nat.mul_comm _ _
    omega
  rw [hd]
  tauto

/-- What one pixel receives from the finer map. -/
noncomputable def received (x : In) (k q p : Nat) : ℝ :=
  ∑ s ∈ Finset.range x.r, if x.r * q + s < x.a2.naxis - x.a2.hi - x.a2.lo then
    (∑ t ∈ Finset.range x.r, if x.r * p + t < x.a1.naxis - x.a1.hi - x.a1.lo then
      x.img k (x.a2.lo + (x.r * q + s)) (x.a1.lo + (x.r * p + t)) / x.r / x.r * x.sol (q * x.n1 + p) else 0) else 0

/-- The sizes fit. -/
structure Fits (x : In) : Prop where
  r0 : 0 < x.r
  c1 : x.a1.naxis - x.a1.hi - x.a1.lo ≤ x.r * x.n1
  c2 : x.a2.naxis - x.a2.hi - x.a2.lo ≤ x.r * x.n2

theorem addPix_ok (x : In) (hx : Fits x) {npts kmin k j i : Nat} (hv : x.verbose = true → 20 ≤ npts) (hk : kmin ≤ k) {m : List ℝ}
    (hj : x.a2.lo ≤ j) (hj2 : j < x.a2.lo + (x.a2.naxis - x.a2.hi - x.a2.lo)) (hi : x.a1.lo ≤ i)
    (hi2 : i < x.a1.lo + (x.a1.naxis - x.a1.hi - x.a1.lo))
    (hm : (k - kmin) * (x.n1 * x.n2) + ((j - x.a2.lo) / x.r * x.n1 + (i - x.a1.lo) / x.r) < m.length) :
    (j - x.a2.lo) / x.r < x.n2 ∧ (i - x.a1.lo) / x.r < x.n1 ∧
    addPix x npts kmin k j i m = .ok (m.set ((k - kmin) * (x.n1 * x.n2) + ((j - x.a2.lo) / x.r * x.n1 + (i - x.a1.lo) / x.r))
      (val m ((k - kmin) * (x.n1 * x.n2) + ((j - x.a2.lo) / x.r * x.n1 + (i - x.a1.lo) / x.r)) +
        x.img k j i / x.r / x.r * x.sol ((j - x.a2.lo) / x.r * x.n1 + (i - x.a1.lo) / x.r))) := by
  have hr := hx.r0
  have h1 := hx.c1
  have h2 := hx.c2
  have hq : (j - x.a2.lo) / x.r < x.n2 := Nat.div_lt_of_lt_mul (by omega)
  have hp : (i - x.a1.lo) / x.r < x.n1 := Nat.div_lt_of_lt_mul (by omega)
  refine ⟨hq, hp, ?_⟩
  have hlt := idx_lt hp hq
  unfold addPix
  rw [if_neg (by omega), if_neg (fun h => by have := hv h.2.2.1; omega)]
  simp only
  rw [if_neg (by rw [Nat.mul_comm x.n1 x.n2]; omega), if_neg (by omega), vadd_ok hm]

theorem fits_lt (x : In) (hx : Fits x) {j i : Nat}
    (hj : x.a2.lo ≤ j) (hj2 : j < x.a2.lo + (x.a2.naxis - x.a2.hi - x.a2.lo)) (hi : x.a1.lo ≤ i)
    (hi2 : i < x.a1.lo + (x.a1.naxis - x.a1.hi - x.a1.lo)) :
    (j - x.a2.lo) / x.r < x.n2 ∧ (i - x.a1.lo) / x.r < x.n1 :=
  ⟨Nat.div_lt_of_lt_mul (by have := hx.c2; omega), Nat.div_lt_of_lt_mul (by have := hx.c1; omega)⟩

theorem layer_ok (x : In) (hx : Fits x) {npts kmin k nb : Nat} (hv : x.verbose = true → 20 ≤ npts) (hk : kmin ≤ k) (hk2 : k - kmin < nb)
    {m : List ℝ} (hm : m.length = nb * (x.n1 * x.n2)) :
    ∃ w, layer x npts kmin k m = .ok w ∧ w.length = nb * (x.n1 * x.n2) ∧
      ∀ k' q p, k' < nb → q < x.n2 → p < x.n1 → val w (k' * (x.n1 * x.n2) + (q * x.n1 + p)) =
        val m (k' * (x.n1 * x.n2) + (q * x.n1 + p)) + if k' = k - kmin then received x k q p else 0 := by
  set c1 := x.a1.naxis - x.a1.hi - x.a1.lo with hc1
  set c2 := x.a2.naxis - x.a2.hi - x.a2.lo with hc2
  let g : Nat → Nat → Nat := fun j i => (k - kmin) * (x.n1 * x.n2) + ((j - x.a2.lo) / x.r * x.n1 + (i - x.a1.lo) / x.r)
  let v : Nat → Nat → ℝ := fun j i => x.img k j i / x.r / x.r * x.sol ((j - x.a2.lo) / x.r * x.n1 + (i - x.a1.lo) / x.r)
  have hin : ∀ j w, x.a2.lo ≤ j → j < x.a2.lo + c2 → w.length = nb * (x.n1 * x.n2) →
      ∃ w', loop (fun i m => addPix x npts kmin k j i m) x.a1.lo c1 w = .ok w' ∧ w'.length = nb * (x.n1 * x.n2) ∧
        ∀ a, val w' a = val w a + ∑ i ∈ Finset.range c1, if g j (x.a1.lo + i) = a then v j (x.a1.lo + i) else 0 := by
    intro j w hj hj2 hw
    refine loop_acc (g j) (v j) hw fun i u hi hi2 hu => ?_
    obtain ⟨f1, f2⟩ := fits_lt x hx hj hj2 hi hi2
    have hlt : g j i < nb * (x.n1 * x.n2) := idx_lt (by rw [Nat.mul_comm x.n1 x.n2]; exact idx_lt f2 f1) hk2
    exact ⟨hlt, (addPix_ok x hx hv hk hj hj2 hi hi2 (by rw [hu]; exact hlt)).2.2⟩
  obtain ⟨w, h1, h2, h3⟩ := loop_inv (lo := x.a2.lo) (n := c2) (s := m)
    (body := fun j m => loop (fun i m => addPix x npts kmin k j i m) x.a1.lo c1 m)
    (fun j w => w.length = nb * (x.n1 * x.n2) ∧ ∀ a, val w a = val m a + ∑ j' ∈ Finset.range (j - x.a2.lo),
      ∑ i ∈ Finset.range c1, if g (x.a2.lo + j') (x.a1.lo + i) = a then v (x.a2.lo + j') (x.a1.lo + i) else 0)
    ⟨hm, fun a => by simp⟩
    (by
      rintro j w hj hj2 ⟨e1, e2⟩
      obtain ⟨w', f1, f2, f3⟩ := hin j w hj hj2 e1
      refine ⟨w', f1, f2, fun a => ?_⟩
      rw [f3, e2, show j + 1 - x.a2.lo = (j - x.a2.lo) + 1 by omega, Finset.sum_range_succ, show x.a2.lo + (j - x.a2.lo) = j by omega,
        add_assoc])
  refine ⟨w, h1, h2, fun k' q p hk' hq hp => ?_⟩
  rw [h3]
  congr 1
  rw [show x.a2.lo + c2 - x.a2.lo = c2 by omega]
  have hqp : q * x.n1 + p < x.n1 * x.n2 := by rw [Nat.mul_comm x.n1 x.n2]; exact idx_lt hp hq
  have hinner : ∀ j ∈ Finset.range c2, (∑ i ∈ Finset.range c1, if g (x.a2.lo + j) (x.a1.lo + i) = k' * (x.n1 * x.n2) + (q * x.n1 + p)
      then v (x.a2.lo + j) (x.a1.lo + i) else 0) = if j / x.r = q then (∑ i ∈ Finset.range c1, if i / x.r = p then
        (if k' = k - kmin then x.img k (x.a2.lo + j) (x.a1.lo + i) / x.r / x.r * x.sol (q * x.n1 + p) else 0) else 0) else 0 := by
    intro j hj
    have hj' := Finset.mem_range.1 hj
    by_cases hjq : j / x.r = q
    · rw [if_pos hjq]
      refine Finset.sum_congr rfl fun i hi => ?_
      have hi' := Finset.mem_range.1 hi
      obtain ⟨f1, f2⟩ := fits_lt x hx (j := x.a2.lo + j) (i := x.a1.lo + i) (by omega) (by omega) (by omega) (by omega)
      simp only [g, v, Nat.add_sub_cancel_left] at f1 f2 ⊢
      have hlt : j / x.r * x.n1 + i / x.r < x.n1 * x.n2 := by rw [Nat.mul_comm x.n1 x.n2]; exact idx_lt f2 f1
      by_cases hip : i / x.r = p
      · rw [if_pos hip, hjq, hip]
        by_cases hkk : k' = k - kmin
        · rw [if_pos (by rw [hkk]), if_pos hkk]
        · rw [if_neg, if_neg hkk]
          intro he
          exact hkk (idx_inj hqp hqp he).1.symm
      · rw [if_neg hip, if_neg]
        intro he
        exact hip (idx_inj f2 hp (idx_inj hlt hqp he).2).2
    · rw [if_neg hjq]
      refine Finset.sum_eq_zero fun i hi => ?_
      have hi' := Finset.mem_range.1 hi
      obtain ⟨f1, f2⟩ := fits_lt x hx (j := x.a2.lo + j) (i := x.a1.lo + i) (by omega) (by omega) (by omega) (by omega)
      simp only [g, v, Nat.add_sub_cancel_left] at f1 f2 ⊢
      have hlt : j / x.r * x.n1 + i / x.r < x.n1 * x.n2 := by rw [Nat.mul_comm x.n1 x.n2]; exact idx_lt f2 f1
      rw [if_neg]
      intro he
      exact hjq (idx_inj f2 hp (idx_inj hlt hqp he).2).1
  rw [Finset.sum_congr rfl hinner, sum_div_eq c2 x.r q hx.r0]
  by_cases hkk : k' = k - kmin
  · rw [if_pos hkk]
    unfold received
    refine Finset.sum_congr rfl fun s _ => ?_
    rw [sum_div_eq c1 x.r p hx.r0]
    simp only [if_pos hkk]
    rfl
  · rw [if_neg hkk]
    refine Finset.sum_eq_zero fun s _ => ?_
    split
    · refine Finset.sum_eq_zero fun i _ => ?_
      simp [hkk]
    · rfl

theorem received_full (x : In) (k q p : Nat) (hq : q < x.n2) (hp : p < x.n1)
    (h1 : x.r * x.n1 ≤ x.a1.naxis - x.a1.hi - x.a1.lo) (h2 : x.r * x.n2 ≤ x.a2.naxis - x.a2.hi - x.a2.lo) :
    received x k q p = x.sol (q * x.n1 + p) * mean x.r (fun s t => x.img k (x.a2.lo + (x.r * q + s)) (x.a1.lo + (x.r * p + t))) := by
  have lt : ∀ {n a t : Nat}, a < n → t < x.r → x.r * a + t < x.r * n := by
    intro n a t ha ht
    have := idx_lt (n := x.r) (k := a) (p := t) (m := n) ht ha
    rw [Nat.mul_comm x.r a, Nat.mul_comm x.r n]; exact this
  unfold received mean
  rw [mul_div_assoc', Finset.mul_sum, Finset.sum_div]
  refine Finset.sum_congr rfl fun s hs => ?_
  rw [if_pos (lt_of_lt_of_le (lt hq (Finset.mem_range.1 hs)) h2), Finset.mul_sum, Finset.sum_div]
  refine Finset.sum_congr rfl fun t ht => ?_
  rw [if_pos (lt_of_lt_of_le (lt hp (Finset.mem_range.1 ht)) h1)]
  rw [div_div, mul_comm (x.sol _), mul_div_right_comm]

theorem diffuse_ok (x : In) (hx : Fits x) (hv : x.verbose = true → 20 ≤ x.ne * (x.n1 * x.n2)) {m0 : List ℝ} (hm0 : m0 = []) :
    ∃ m, diffuse x 0 (-1) m0 = .ok m ∧ m.length = x.ne * (x.n1 * x.n2) ∧ ∀ k q p, k < x.ne → q < x.n2 → p < x.n1 →
      at3 x.n1 x.n2 m k q p = some (received x k q p) := by
  subst hm0
  unfold diffuse
  simp only [show ((-1 : ℤ) < 0) = True by simp, if_true, Nat.not_lt_zero, if_false, Nat.sub_zero]
  obtain ⟨w, h1, h2, h3⟩ := loop_inv (lo := 0) (n := x.ne) (s := vresize ([] : List ℝ) (x.ne * (x.n1 * x.n2)) 0)
    (body := fun k m => layer x (x.ne * (x.n1 * x.n2)) 0 k m)
    (fun k w => w.length = x.ne * (x.n1 * x.n2) ∧ ∀ k' q p, k' < x.ne → q < x.n2 → p < x.n1 →
      val w (k' * (x.n1 * x.n2) + (q * x.n1 + p)) = if k' < k then received x k' q p else 0)
    ⟨by simp, fun k' q p _ _ _ => by simp [vresize]⟩
    (by
      rintro k w _ hk ⟨e1, e2⟩
      obtain ⟨w', f1, f2, f3⟩ := layer_ok x hx hv (Nat.zero_le k) (nb := x.ne) (by omega) e1
      refine ⟨w', f1, f2, fun k' q p hk' hq hp => ?_⟩
      rw [f3 k' q p hk' hq hp, e2 k' q p hk' hq hp, Nat.sub_zero]
      rcases lt_trichotomy k' k with h | h | h
      · simp [h, show k' ≠ k by omega, show k' < k + 1 by omega]
      · subst h; simp
      · simp [show ¬ k' < k by omega, show k' ≠ k by omega, show ¬ k' < k + 1 by omega])
  refine ⟨w, h1, h2, fun k q p hk hq hp => ?_⟩
  have hqp : q * x.n1 + p < x.n1 * x.n2 := by rw [Nat.mul_comm x.n1 x.n2]; exact idx_lt hp hq
  unfold at3
  rw [show p + x.n1 * (q + x.n2 * k) = k * (x.n1 * x.n2) + (q * x.n1 + p) by ring,
    getElem?_val (by rw [h2]; exact idx_lt hqp hk), h3 k q p hk hq hp, if_pos (by omega)]

end Verif.DiffMap
