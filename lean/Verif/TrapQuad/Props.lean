import Verif.TrapQuad.Model
import Verif.TrapQuad.Spec
import Mathlib.Tactic.Ring
import Mathlib.Tactic.Linarith
import Mathlib.Algebra.BigOperators.Intervals
set_option linter.unusedVariables false
set_option linter.unusedSimpArgs false
namespace Verif.TrapQuad

open Verif.Vec
open scoped BigOperators

/-! ### helper lemmas -/

theorem trapezoid_sum (pts : List (ℝ × ℝ)) :
    trapezoid pts = ∑ i ∈ Finset.range (pts.length - 1),
      ((val pts i).2 + (val pts (i + 1)).2) / 2 * ((val pts (i + 1)).1 - (val pts i).1) := by
  induction pts with
  | nil => simp [trapezoid]
  | cons p l ih =>
    cases l with
    | nil => simp [trapezoid]
    | cons q l =>
      simp only [List.length_cons, Nat.add_sub_cancel] at ih ⊢
      rw [Finset.sum_range_succ', trapezoid, ih, add_comm]
      rfl

theorem ends_inner (a d : Nat → ℝ) (m : Nat) :
    a 0 * d 0 / 2 + a (m + 1) * d m / 2 + ∑ i ∈ Finset.range m, a (i + 1) * (d i + d (i + 1)) / 2 =
      ∑ i ∈ Finset.range (m + 1), (a i + a (i + 1)) / 2 * d i := by
  induction m with
  | zero => simp; ring
  | succ m ih =>
    rw [Finset.sum_range_succ, Finset.sum_range_succ _ (m + 1), ← ih]
    ring

/-- Any loop of the shape used by both rules. -/
theorem rule_ok (a d : Nat → ℝ) (n : Nat) (hn : 2 ≤ n) {body : Nat → ℝ → Res ℝ}
    (hb : ∀ i, i < n - 2 → ∀ s, body i s =
      .ok (s + a (n - 2 - i) * (d (n - 2 - i - 1) + d (n - 2 - i)) / 2)) :
    loop body 0 (n - 2) (a 0 * d 0 / 2 + a (n - 1) * d (n - 2) / 2) =
      .ok (∑ i ∈ Finset.range (n - 1), (a i + a (i + 1)) / 2 * d i) := by
  obtain ⟨m, rfl⟩ : ∃ m, n = m + 2 := ⟨n - 2, by omega⟩
  simp only [Nat.add_sub_cancel] at hb ⊢
  rw [loop_sum (fun i => a (m - i) * (d (m - i - 1) + d (m - i)) / 2) _
    (fun i s _ h2 => hb i (by omega) s)]
  have : ∑ i ∈ Finset.range m, a (m - (0 + i)) * (d (m - (0 + i) - 1) + d (m - (0 + i))) / 2 =
      ∑ i ∈ Finset.range m, a (i + 1) * (d i + d (i + 1)) / 2 := by
    rw [← Finset.sum_range_reflect]
    apply Finset.sum_congr rfl
    intro i hi
    rw [Finset.mem_range] at hi
    have e1 : m - (0 + (m - 1 - i)) = i + 1 := by omega
    rw [e1, Nat.add_sub_cancel]
  have h := ends_inner a d m
  have e : m + 2 - 1 = m + 1 := by omega
  rw [e, this, h]

theorem computeIntegral_ok {x y : List ℝ} (hxy : x.length = y.length) (hn : 2 ≤ y.length) :
    computeIntegral x y = .ok (∑ i ∈ Finset.range (y.length - 1),
      (val y i + val y (i + 1)) / 2 * (val x (i + 1) - val x i)) := by
  unfold computeIntegral
  simp only
  rw [if_neg (by omega), vget_val (by omega), vget_val (l := x) (by omega),
    vget_val (l := x) (by omega), vget_val (by omega), vget_val (l := x) (by omega),
    vget_val (l := x) (by omega)]
  simp only [Res.bind_ok]
  have := rule_ok (val y) (fun i => val x (i + 1) - val x i) y.length hn
    (body := fun i sum => do
      let m := y.length - 2 - i
      let ym ← vget y m
      let xp ← vget x (m + 1)
      let xq ← vget x (m - 1)
      .ok (sum + ym * (xp - xq) / 2)) (by
      intro i hi s
      simp only
      rw [vget_val (by omega), vget_val (l := x) (by omega), vget_val (l := x) (by omega)]
      simp only [Res.bind_ok]
      have e : y.length - 2 - i - 1 + 1 = y.length - 2 - i := by omega
      rw [e]; congr 2; ring)
  have e : y.length - 2 + 1 = y.length - 1 := by omega
  simp only [e, Nat.zero_add] at this
  exact this

theorem computeLogIntegral_ok {x y : List ℝ} (hxy : x.length = y.length) (hn : 2 ≤ y.length)
    (hx : ∀ v ∈ x, 0 < v) :
    computeLogIntegral x y = .ok (∑ i ∈ Finset.range (y.length - 1),
      (val x i * val y i + val x (i + 1) * val y (i + 1)) / 2 *
        (Real.log (val x (i + 1)) - Real.log (val x i))) := by
  have hpos : ∀ i, i < y.length → val x i ≠ 0 := fun i hi =>
    (hx _ (val_mem (by omega))).ne'
  unfold computeLogIntegral
  simp only
  rw [if_neg (by omega), vget_val (by omega), vget_val (l := x) (by omega),
    vget_val (l := x) (by omega), vget_val (by omega), vget_val (l := x) (by omega),
    vget_val (l := x) (by omega)]
  simp only [Res.bind_ok]
  have := rule_ok (fun i => val x i * val y i)
    (fun i => Real.log (val x (i + 1)) - Real.log (val x i)) y.length hn
    (body := fun i sum => do
      let m := y.length - 2 - i
      let ym ← vget y m
      let x' ← vget x m
      let xp ← vget x (m + 1)
      let xq ← vget x (m - 1)
      .ok (sum + ym * x' * Real.log (xp / xq) / 2)) (by
      intro i hi s
      simp only
      rw [vget_val (by omega), vget_val (l := x) (by omega), vget_val (l := x) (by omega),
        vget_val (l := x) (by omega)]
      simp only [Res.bind_ok]
      rw [Real.log_div (hpos _ (by omega)) (hpos _ (by omega))]
      have e : y.length - 2 - i - 1 + 1 = y.length - 2 - i := by omega
      rw [e]; congr 2; ring)
  have e : y.length - 2 + 1 = y.length - 1 := by omega
  simp only [e, Nat.zero_add] at this
  rw [Real.log_div (hpos _ (by omega)) (hpos _ (by omega)),
    Real.log_div (hpos _ (by omega)) (hpos _ (by omega)), mul_comm (val y 0),
    mul_comm (val y (y.length - 1))]
  exact this

theorem val_zip {x y : List ℝ} (h : x.length = y.length) {i : Nat} (hi : i < y.length) :
    val (x.zip y) i = (val x i, val y i) := by
  rw [val_lt (by simp; omega), val_lt (l := x) (by omega), val_lt (l := y) (by omega)]
  simp

theorem trapezoid_zip {x y : List ℝ} (h : x.length = y.length) (hn : 2 ≤ y.length) :
    trapezoid (x.zip y) = ∑ i ∈ Finset.range (y.length - 1),
      (val y i + val y (i + 1)) / 2 * (val x (i + 1) - val x i) := by
  rw [trapezoid_sum]
  have hl : (x.zip y).length = y.length := by simp [h]
  rw [hl]
  apply Finset.sum_congr rfl
  intro i hi
  rw [Finset.mem_range] at hi
  rw [val_zip h (by omega), val_zip h (by omega)]

theorem logTrapezoid_zip {x y : List ℝ} (h : x.length = y.length) (hn : 2 ≤ y.length) :
    logTrapezoid (x.zip y) = ∑ i ∈ Finset.range (y.length - 1),
      (val x i * val y i + val x (i + 1) * val y (i + 1)) / 2 *
        (Real.log (val x (i + 1)) - Real.log (val x i)) := by
  unfold logTrapezoid
  rw [trapezoid_sum]
  have hl : (x.zip y).length = y.length := by simp [h]
  rw [List.length_map, hl]
  have hv : ∀ i, i < y.length → val ((x.zip y).map (fun p => (Real.log p.1, p.1 * p.2))) i =
      (Real.log (val x i), val x i * val y i) := by
    intro i hi
    rw [val_lt (by simp; omega), val_lt (l := x) (by omega), val_lt (l := y) (by omega)]
    simp
  apply Finset.sum_congr rfl
  intro i hi
  rw [Finset.mem_range] at hi
  rw [hv i (by omega), hv (i + 1) (by omega)]

/-! ### the property -/

/-- C26: with vectors of the same size, two points or more, `integral()` is the trapezoid
sum. -/
theorem C26_trapezoid (x y : List ℝ) (hxy : x.length = y.length) (hn : 2 ≤ y.length) :
    (Obj.ofVectors x y false).integral = .ok (trapezoid (x.zip y)) := by
  rw [trapezoid_zip hxy hn]
  exact computeIntegral_ok hxy hn

/-- C26, logarithmic option: the trapezoid sum in log-abscissa, for positive abscissae. -/
theorem C26_log_trapezoid (x y : List ℝ) (hxy : x.length = y.length) (hn : 2 ≤ y.length)
    (hx : ∀ v ∈ x, 0 < v) :
    (Obj.ofVectors x y true).integral = .ok (logTrapezoid (x.zip y)) := by
  rw [logTrapezoid_zip hxy hn]
  exact computeLogIntegral_ok hxy hn hx

example : (Obj.ofVectors [1, 2, 4] [3, 5, 1] false).integral = .ok 10 := by
  rw [C26_trapezoid [1, 2, 4] [3, 5, 1] rfl (by simp)]
  norm_num [trapezoid]

example : (Obj.ofVectors [1, 2, 4] [3, 5, 1] true).integral =
    .ok (logTrapezoid [(1, 3), (2, 5), (4, 1)]) :=
  C26_log_trapezoid _ _ rfl (by simp) (by intro v hv; simp at hv; rcases hv with rfl | rfl | rfl <;> norm_num)

/-- C26 for a function object on a given grid. -/
theorem C26_function_on_grid (f : ℝ → ℝ) (xs : List ℝ) (hn : 2 ≤ xs.length) (useLog : Bool)
    (hx : useLog = true → ∀ v ∈ xs, 0 < v) :
    ∃ q, (Obj.ofFunc f useLog).integralOn xs = .ok (q,
      if useLog then logTrapezoid (xs.map (fun x => (x, f x)))
      else trapezoid (xs.map (fun x => (x, f x)))) := by
  have hz : xs.zip (xs.map f) = xs.map (fun x => (x, f x)) := by
    clear hn hx
    induction xs with
    | nil => rfl
    | cons a l ih => rw [List.map_cons, List.zip_cons_cons, ih, List.map_cons]
  unfold Obj.integralOn Obj.ofFunc Obj.compute
  simp only
  cases useLog with
  | false =>
    simp only [Bool.false_eq_true, if_false]
    rw [computeIntegral_ok (by simp) (by simpa using hn), ← trapezoid_zip (by simp) (by simpa using hn), hz]
    exact ⟨_, rfl⟩
  | true =>
    simp only [if_true]
    rw [computeLogIntegral_ok (by simp) (by simpa using hn) (hx rfl),
      ← logTrapezoid_zip (by simp) (by simpa using hn), hz]
    exact ⟨_, rfl⟩

/-- C26 for a function object on a uniform grid: the grid runs from `xmin` to `xmax` in
equal steps. -/
theorem C26_function_uniform (f : ℝ → ℝ) (xmin xmax : ℝ) (npts : Nat) (hn : 2 ≤ npts) :
    ∃ (q : Obj) (x : List ℝ), (Obj.ofFunc f false).integralUniform xmin xmax npts =
        .ok (q, trapezoid (x.map (fun x => (x, f x)))) ∧
      x.length = npts ∧ val x 0 = xmin ∧ val x (npts - 1) = xmax ∧
      ∀ i, i + 1 < npts → val x (i + 1) - val x i = (xmax - xmin) / ((npts : ℝ) - 1) := by
  have hx0 : ∀ i, i < npts → val ((List.range npts).map
      (fun i : Nat => (i : ℝ) * ((xmax - xmin) / ((npts : ℝ) - 1)) + xmin)) i =
      (i : ℝ) * ((xmax - xmin) / ((npts : ℝ) - 1)) + xmin := fun i hi => val_map_range _ hi
  have hne : (npts : ℝ) - 1 ≠ 0 := by
    have : (2 : ℝ) ≤ npts := by exact_mod_cast hn
    linarith
  set x := (List.range npts).map (fun i : Nat => (i : ℝ) * ((xmax - xmin) / ((npts : ℝ) - 1)) + xmin) with hxd
  have hlen : x.length = npts := by simp [hxd]
  obtain ⟨q, hq⟩ := C26_function_on_grid f x (by omega) false (by simp)
  refine ⟨q, x, ?_, hlen, ?_, ?_, ?_⟩
  · simp only [Bool.false_eq_true, if_false] at hq
    exact hq
  · rw [hx0 0 (by omega)]; simp
  · rw [hx0 (npts - 1) (by omega), Nat.cast_sub (by omega)]
    push_cast
    rw [mul_div_assoc', mul_div_right_comm, div_self hne]; ring
  · intro i hi
    rw [hx0 _ hi, hx0 i (by omega)]
    push_cast; ring

example : ∃ q, (Obj.ofFunc (fun x => 2 * x + 1) false).integralUniform 0 3 4 = .ok (q, 12) := by
  refine ⟨⟨[0, 1, 2, 3], [1, 3, 5, 7], some (fun x => 2 * x + 1), false⟩, ?_⟩
  unfold Obj.integralUniform Obj.ofFunc Obj.compute
  have hx : (List.range 4).map (fun i : Nat => (i : ℝ) * ((3 - 0) / ((4 : Nat) - 1 : ℝ)) + 0) =
      [0, 1, 2, 3] := by
    simp [List.range_succ]; norm_num
  simp only [hx]
  have hy : ([0, 1, 2, 3] : List ℝ).map (fun x => 2 * x + 1) = [1, 3, 5, 7] := by norm_num
  rw [hy]
  simp only [Bool.false_eq_true, if_false]
  rw [computeIntegral_ok (x := [0, 1, 2, 3]) (y := [1, 3, 5, 7]) rfl (by simp),
    ← trapezoid_zip (x := [0, 1, 2, 3]) (y := [1, 3, 5, 7]) rfl (by simp)]
  norm_num [trapezoid]

/-- C26: the quadrature is linear in the integrand. -/
theorem C26_linear (x y z w : List ℝ) (a b : ℝ) (hy : x.length = y.length) (hz : x.length = z.length)
    (hw : w.length = x.length) (hn : 2 ≤ x.length)
    (hval : ∀ i, i < x.length → val w i = a * val y i + b * val z i) (useLog : Bool)
    (hx : useLog = true → ∀ v ∈ x, 0 < v) :
    ∃ Iy Iz, (Obj.ofVectors x y useLog).integral = .ok Iy ∧
      (Obj.ofVectors x z useLog).integral = .ok Iz ∧
      (Obj.ofVectors x w useLog).integral = .ok (a * Iy + b * Iz) := by
  cases useLog with
  | false =>
    refine ⟨_, _, computeIntegral_ok hy (hy ▸ hn), computeIntegral_ok hz (hz ▸ hn), ?_⟩
    refine (computeIntegral_ok hw.symm (hw.symm ▸ hn)).trans ?_
    congr 1
    simp only [Obj.ofVectors]
    rw [← hy, ← hz, hw, Finset.mul_sum, Finset.mul_sum, ← Finset.sum_add_distrib]
    apply Finset.sum_congr rfl
    intro i hi
    rw [Finset.mem_range] at hi
    rw [hval i (by omega), hval (i + 1) (by omega)]; ring
  | true =>
    refine ⟨_, _, computeLogIntegral_ok hy (hy ▸ hn) (hx rfl),
      computeLogIntegral_ok hz (hz ▸ hn) (hx rfl), ?_⟩
    refine (computeLogIntegral_ok hw.symm (hw.symm ▸ hn) (hx rfl)).trans ?_
    congr 1
    simp only [Obj.ofVectors]
    rw [← hy, ← hz, hw, Finset.mul_sum, Finset.mul_sum, ← Finset.sum_add_distrib]
    apply Finset.sum_congr rfl
    intro i hi
    rw [Finset.mem_range] at hi
    rw [hval i (by omega), hval (i + 1) (by omega)]; ring

example : ∃ Iy Iz, (Obj.ofVectors [1, 2] [3, 5] true).integral = .ok Iy ∧
    (Obj.ofVectors [1, 2] [1, 7] true).integral = .ok Iz ∧
    (Obj.ofVectors [1, 2] [5, 19] true).integral = .ok (1 * Iy + 2 * Iz) :=
  C26_linear [1, 2] [3, 5] [1, 7] [5, 19] 1 2 rfl rfl rfl (by simp)
    (by intro i hi; obtain rfl | rfl : i = 0 ∨ i = 1 := by simp at hi; omega
        · norm_num
        · simp only [val_cons_succ, val_cons_zero]; norm_num) true
    (by intro _ v hv; simp at hv; rcases hv with rfl | rfl <;> norm_num)

theorem trapezoid_append (p : ℝ × ℝ) (l r : List (ℝ × ℝ)) :
    trapezoid (l ++ p :: r) = trapezoid (l ++ [p]) + trapezoid (p :: r) := by
  induction l with
  | nil => simp [trapezoid]
  | cons a l ih =>
    cases l with
    | nil => simp [trapezoid]
    | cons b l =>
      simp only [List.cons_append, trapezoid] at ih ⊢
      rw [ih, add_assoc]

/-- C26: splitting the grid at a node splits the integral, with either rule. -/
theorem C26_split (l r : List (ℝ × ℝ)) (p : ℝ × ℝ) (hl : l ≠ []) (hr : r ≠ []) (useLog : Bool)
    (hx : useLog = true → ∀ q ∈ l ++ p :: r, 0 < q.1) (I : List (ℝ × ℝ) → Res ℝ)
    (hI : ∀ pts, I pts = (Obj.ofVectors (pts.map Prod.fst) (pts.map Prod.snd) useLog).integral) :
    ∃ a b, I (l ++ [p]) = .ok a ∧ I (p :: r) = .ok b ∧ I (l ++ p :: r) = .ok (a + b) := by
  have hl' := List.length_pos_iff.2 hl
  have hr' := List.length_pos_iff.2 hr
  have hzip : ∀ pts : List (ℝ × ℝ), (pts.map Prod.fst).zip (pts.map Prod.snd) = pts := by
    intro pts; simp [List.zip_map']
  cases useLog with
  | false =>
    have h : ∀ pts : List (ℝ × ℝ), 2 ≤ pts.length → I pts = .ok (trapezoid pts) := by
      intro pts h2
      rw [hI, C26_trapezoid _ _ (by simp) (by simpa using h2), hzip]
    refine ⟨_, _, h _ (by simp; omega), h _ (by simp; omega), ?_⟩
    rw [h _ (by simp; omega), trapezoid_append]
  | true =>
    have h : ∀ pts : List (ℝ × ℝ), 2 ≤ pts.length → (∀ q ∈ pts, 0 < q.1) →
        I pts = .ok (logTrapezoid pts) := by
      intro pts h2 hp
      rw [hI, C26_log_trapezoid _ _ (by simp) (by simpa using h2)
        (by intro v hv; rw [List.mem_map] at hv; obtain ⟨q, hq, rfl⟩ := hv; exact hp q hq), hzip]
    have hx' := hx rfl
    refine ⟨_, _, h _ (by simp; omega) (fun q hq => hx' q (by simp at hq ⊢; tauto)),
      h _ (by simp; omega) (fun q hq => hx' q (by simp at hq ⊢; tauto)), ?_⟩
    rw [h _ (by simp; omega) hx']
    congr 1
    unfold logTrapezoid
    simp only [List.map_append, List.map_cons, List.map_nil]
    exact trapezoid_append _ _ _

example : ∃ a b, (Obj.ofVectors [1, 2] [3, 5] false).integral = .ok a ∧
    (Obj.ofVectors [2, 4] [5, 1] false).integral = .ok b ∧
    (Obj.ofVectors [1, 2, 4] [3, 5, 1] false).integral = .ok (a + b) := by
  obtain ⟨a, b, h1, h2, h3⟩ := C26_split [(1, 3)] [(4, 1)] (2, 5) (by simp) (by simp) false (by simp)
    (fun pts => (Obj.ofVectors (pts.map Prod.fst) (pts.map Prod.snd) false).integral) (fun _ => rfl)
  exact ⟨a, b, h1, h2, h3⟩

/-- C26: non-negative integrands on increasing grids give non-negative integrals. -/
theorem C26_nonneg (x y : List ℝ) (hxy : x.length = y.length) (hn : 2 ≤ y.length)
    (hinc : x.Pairwise (· ≤ ·)) (hy : ∀ v ∈ y, 0 ≤ v) :
    ∃ v, (Obj.ofVectors x y false).integral = .ok v ∧ 0 ≤ v := by
  refine ⟨_, computeIntegral_ok hxy hn, Finset.sum_nonneg ?_⟩
  intro i hi
  rw [Finset.mem_range] at hi
  simp only [Obj.ofVectors] at hi ⊢
  have h1 := hy _ (val_mem (l := y) (k := i) (by omega))
  have h2 := hy _ (val_mem (l := y) (k := i + 1) (by omega))
  have h3 := pairwise_val.1 hinc i (i + 1) (by omega) (by omega)
  exact mul_nonneg (by linarith) (by linarith)

example : ∃ v, (Obj.ofVectors [1, 2, 4] [3, 0, 1] false).integral = .ok v ∧ 0 ≤ v :=
  C26_nonneg _ _ rfl (by simp) (by simp; norm_num) (by simp)

/-- Grids outside the quantifier of C26: with fewer than two points memory before the
vectors is read. -/
theorem C26_short_grid (x y : List ℝ) (useLog : Bool) (h : y.length < 2) :
    (Obj.ofVectors x y useLog).integral = .ub := by
  unfold Obj.ofVectors Obj.integral Obj.compute
  cases useLog <;> simp [computeIntegral, computeLogIntegral, h]

/-- The wrong kind of object is refused. -/
theorem C26_wrong_kind (x y : List ℝ) (f : ℝ → ℝ) (useLog : Bool) (a b : ℝ) (n : Nat)
    (xs : List ℝ) : (Obj.ofFunc f useLog).integral = .throws ∧
      (Obj.ofVectors x y useLog).integralUniform a b n = .throws ∧
      (Obj.ofVectors x y useLog).integralOn xs = .throws := ⟨rfl, rfl, rfl⟩

end Verif.TrapQuad
