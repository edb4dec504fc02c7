import Verif.MapInt.Model
import Verif.MapInt.Spec
import Verif.Vec
import Mathlib.Tactic.Ring
import Mathlib.Tactic.Linarith
import Mathlib.Tactic.FieldSimp
import Mathlib.Algebra.BigOperators.Ring.Finset
/-
Loops over planes.
-/
set_option linter.unusedSectionVars false
set_option linter.unusedSimpArgs false
set_option linter.unusedVariables false
namespace Verif.MapInt
open Verif.MapInt.Spec
open scoped BigOperators

/-! ### Loops -/

theorem loop_ub {σ : Type _} {body : Nat → σ → Res σ} {lo n k : Nat} {s : σ} (hk : k < n)
    (h : ∀ i s, lo ≤ i → i < lo + k → ∃ s', body i s = .ok s') (hub : ∀ s, body (lo + k) s = .ub) :
    loop body lo n s = .ub := by
  induction k generalizing lo n s with
  | zero =>
    obtain ⟨n, rfl⟩ : ∃ m, n = m + 1 := ⟨n - 1, by omega⟩
    rw [loop, show body lo s = .ub from hub s]
    rfl
  | succ k ih =>
    obtain ⟨n, rfl⟩ : ∃ m, n = m + 1 := ⟨n - 1, by omega⟩
    obtain ⟨s', hs⟩ := h lo s le_rfl (by omega)
    rw [loop, hs, Res.bind_ok]
    exact ih (by omega) (fun i s h1 h2 => h i s (by omega) (by omega))
      (fun s => by rw [show lo + 1 + k = lo + (k + 1) by omega]; exact hub s)

theorem loop_ok {σ : Type _} {body : Nat → σ → Res σ} {lo n : Nat} (s : σ)
    (h : ∀ i s, lo ≤ i → i < lo + n → ∃ s', body i s = .ok s') : ∃ s', loop body lo n s = .ok s' := by
  obtain ⟨s', h1, _⟩ := loop_inv (fun _ _ => True) (s := s) trivial
    (fun i s h1 h2 _ => (h i s h1 h2).imp fun _ h => ⟨h, trivial⟩)
  exact ⟨s', h1⟩

/-! ### Planes -/

theorem Spec.Shape.row {p : Plane} {n1 n2 : Nat} (h : Shape p n1 n2) {j : Nat} (hj : j < n2) :
    ∃ row, p[j]? = some row ∧ vget p j = .ok row ∧ row.length = n1 ∧ ∀ i, pix p j i = el row i := by
  have hj' : j < p.length := by rw [h.1]; exact hj
  refine ⟨p[j], List.getElem?_eq_getElem hj', vget_lt p j hj', h.2 _ (List.getElem_mem hj'), fun i => ?_⟩
  unfold pix el
  rw [List.getElem?_eq_getElem hj']
  rfl

theorem vget_el {l : List ℝ} {i : Nat} (h : i < l.length) : vget l i = .ok (el l i) := by
  rw [vget_lt l i h]
  unfold el
  rw [List.getElem?_eq_getElem h]
  rfl

theorem el_set {l : List ℝ} {i k : Nat} {a : ℝ} (h : i < l.length) : el (l.set i a) k = if k = i then a else el l k := by
  unfold el
  by_cases hk : k = i
  · subst hk; simp [h]
  · rw [List.getElem?_set]; simp [Ne.symm hk, hk]

theorem el_map_range (f : Nat → ℝ) {n k : Nat} (h : k < n) : el ((List.range n).map f) k = f k := by
  unfold el
  rw [List.getElem?_map, List.getElem?_range h]
  rfl

theorem pix_ge {p : Plane} {n1 n2 : Nat} (h : Shape p n1 n2) {j i : Nat} (hh : n2 ≤ j ∨ n1 ≤ i) : pix p j i = 0 := by
  by_cases hj : j < n2
  · obtain ⟨row, h1, -, h3, h4⟩ := h.row hj
    rw [h4]
    unfold el
    rw [List.getElem?_eq_none (by omega)]
    rfl
  · unfold pix
    rw [List.getElem?_eq_none (show p.length ≤ j by rw [h.1]; omega)]
    rfl

theorem Spec.Shape.set {p : Plane} {n1 n2 : Nat} (h : Shape p n1 n2) {j : Nat} {row : List ℝ} (hr : row.length = n1) :
    Shape (p.set j row) n1 n2 := by
  refine ⟨by rw [List.length_set, h.1], fun r hr' => ?_⟩
  rcases List.mem_or_eq_of_mem_set hr' with h1 | h1
  · exact h.2 r h1
  · rw [h1, hr]

theorem pix_set {p : Plane} {n1 n2 : Nat} (h : Shape p n1 n2) {j : Nat} (hj : j < n2) (row : List ℝ) (j' i : Nat) :
    pix (p.set j row) j' i = if j' = j then el row i else pix p j' i := by
  unfold pix el
  by_cases hk : j' = j
  · subst hk
    rw [List.getElem?_set_self (by rw [h.1]; exact hj)]
    simp
  · rw [List.getElem?_set_ne (Ne.symm hk), if_neg hk]

theorem plane_ext {p q : Plane} {n1 n2 : Nat} (hp : Shape p n1 n2) (hq : Shape q n1 n2)
    (h : ∀ j < n2, ∀ i < n1, pix p j i = pix q j i) : p = q := by
  apply List.ext_getElem (by rw [hp.1, hq.1])
  intro j h1 h2
  have hj : j < n2 := by rw [hp.1] at h1; exact h1
  apply List.ext_getElem (by rw [hp.2 _ (List.getElem_mem h1), hq.2 _ (List.getElem_mem h2)])
  intro i h3 h4
  have := h j hj i (by rw [hp.2 _ (List.getElem_mem h1)] at h3; exact h3)
  unfold pix at this
  rw [List.getElem?_eq_getElem h1, List.getElem?_eq_getElem h2] at this
  simp only [Option.getD_some] at this
  rw [List.getElem?_eq_getElem h3, List.getElem?_eq_getElem h4] at this
  exact this

/-! ### The integral of a plane -/

theorem planeIntegral_eq {sa p : Plane} {n1 n2 : Nat} (hs : Shape sa n2 n1) (hp : Shape p n1 n2) :
    planeIntegral sa p n1 n2 = .ok (integral (pix sa) p n1 n2) := by
  unfold planeIntegral integral
  rw [Vec.loop_sum (fun j => ∑ i ∈ Finset.range n1, pix sa i j * pix p j i) 0]
  · simp
  · intro j s _ hj
    rw [Vec.loop_sum (fun i => pix sa i j * pix p j i) s]
    · simp
    · intro i s' _ hi
      obtain ⟨row, -, h1, h2, h3⟩ := hp.row (show j < n2 by omega)
      obtain ⟨sr, -, g1, g2, g3⟩ := hs.row (show i < n1 by omega)
      rw [g1, Res.bind_ok, vget_el (by omega), Res.bind_ok, h1, Res.bind_ok, vget_el (by omega), Res.bind_ok, g3, h3]

/-- With the indices of the solid angles the other way round the program reads beyond the end
unless the map is a square. -/
theorem planeIntegral_ub {sa p : Plane} {n1 n2 : Nat} (hs : Shape sa n1 n2) (hp : Shape p n1 n2) (h1 : 0 < n1)
    (h2 : 0 < n2) (hne : n1 ≠ n2) : planeIntegral sa p n1 n2 = .ub := by
  have hok : ∀ i j, i < n1 → j < n1 → i < n2 → j < n2 → ∀ s : ℝ, ∃ s', (do
      let w ← vget sa i
      let w' ← vget w j
      let r ← vget p j
      let v ← vget r i
      (.ok (s + w' * v) : Res ℝ)) = .ok s' := by
    intro i j hi hj hi' hj' s
    obtain ⟨row, -, a1, a2, a3⟩ := hp.row hj'
    obtain ⟨sr, -, g1, g2, g3⟩ := hs.row hi'
    refine ⟨s + el sr j * el row i, ?_⟩
    rw [g1, Res.bind_ok, vget_el (by omega), Res.bind_ok, a1, Res.bind_ok, vget_el (by omega), Res.bind_ok]
  unfold planeIntegral
  rcases Nat.lt_or_gt_of_ne hne with hlt | hgt
  · -- fewer columns than rows
    refine loop_ub (k := n1) hlt (fun j s _ hj => loop_ok s fun i s _ hi => hok i j (by omega) (by omega) (by omega) (by omega) s) ?_
    intro s
    refine loop_ub (k := 0) h1 (fun i s a b => by omega) fun s => ?_
    obtain ⟨sr, -, g1, g2, -⟩ := hs.row (show 0 < n2 by omega)
    simp only [Nat.zero_add, Nat.add_zero]
    rw [g1, Res.bind_ok, vget_ge _ _ (by omega)]
    rfl
  · refine loop_ub (k := 0) h2 (fun i s a b => by omega) fun s => ?_
    refine loop_ub (k := n2) hgt (fun i s _ hi => hok i _ (by omega) (by omega) (by omega) (by omega) s) fun s => ?_
    rw [vget_ge _ _ (by rw [hs.1]; omega)]
    rfl

/-! ### Folding -/

theorem foldRow_eq (n : Nat) (l : List ℝ) : foldRow n l = (l.take n ++ List.replicate (n - l.length) 0, l.drop n) := by
  induction n generalizing l with
  | zero => cases l <;> simp [foldRow]
  | succ n ih =>
    cases l with
    | nil => simp [foldRow, ih, List.replicate_succ]
    | cons x l => simp [foldRow, ih]

theorem foldRow_length (n : Nat) (l : List ℝ) : (foldRow n l).1.length = n := by
  rw [foldRow_eq]; simp; omega

theorem foldRow_el (n : Nat) (l : List ℝ) {i : Nat} (h : i < n) : el (foldRow n l).1 i = el l i := by
  rw [foldRow_eq]
  unfold el
  simp only []
  by_cases hi : i < l.length
  · rw [List.getElem?_append_left (by simp; omega), List.getElem?_take_of_lt h]
  · rw [List.getElem?_append_right (by simp; omega), List.getElem?_eq_none (show l.length ≤ i by omega)]
    rw [List.getElem?_replicate]
    split <;> rfl

theorem foldPlane_spec (n1 n : Nat) (l : List ℝ) :
    Shape (foldPlane n1 n l).1 n1 n ∧ (foldPlane n1 n l).2 = l.drop (n * n1) ∧
      ∀ j < n, ∀ i < n1, pix (foldPlane n1 n l).1 j i = el l (j * n1 + i) := by
  induction n generalizing l with
  | zero => exact ⟨⟨rfl, by simp [foldPlane]⟩, by simp [foldPlane], fun j hj => by omega⟩
  | succ n ih =>
    have hd : (foldRow n1 l).2 = l.drop n1 := by rw [foldRow_eq]
    obtain ⟨h1, h2, h3⟩ := ih (foldRow n1 l).2
    refine ⟨⟨by simp [foldPlane, h1.1], fun row hr => ?_⟩, ?_, fun j hj i hi => ?_⟩
    · simp only [foldPlane, List.mem_cons] at hr
      rcases hr with rfl | hr
      · exact foldRow_length _ _
      · exact h1.2 row hr
    · simp only [foldPlane]
      rw [h2, hd, List.drop_drop]
      congr 1
      rw [Nat.succ_mul]; omega
    · cases j with
      | zero =>
        simp only [foldPlane, pix, List.getElem?_cons_zero, Option.getD_some]
        rw [Nat.zero_mul, Nat.zero_add]
        exact foldRow_el n1 l hi
      | succ j =>
        have := h3 j (by omega) i hi
        simp only [foldPlane, pix, List.getElem?_cons_succ] at this ⊢
        rw [this, hd]
        unfold el
        rw [List.getElem?_drop]
        congr 2
        rw [Nat.succ_mul]; omega

theorem foldVector_spec (n1 n2 n : Nat) (l : List ℝ) :
    (foldVector n1 n2 n l).length = n ∧ ∀ k < n, ∃ p, (foldVector n1 n2 n l)[k]? = some p ∧ Shape p n1 n2 ∧
      ∀ j < n2, ∀ i < n1, pix p j i = el l ((k * n2 + j) * n1 + i) := by
  induction n generalizing l with
  | zero => exact ⟨rfl, fun k hk => by omega⟩
  | succ n ih =>
    obtain ⟨g1, g2, g3⟩ := foldPlane_spec n1 n2 l
    obtain ⟨h1, h2⟩ := ih (foldPlane n1 n2 l).2
    refine ⟨by simp [foldVector, h1], fun k hk => ?_⟩
    cases k with
    | zero =>
      refine ⟨_, by simp [foldVector], g1, fun j hj i hi => ?_⟩
      rw [g3 j hj i hi, Nat.zero_mul, Nat.zero_add]
    | succ k =>
      obtain ⟨p, a1, a2, a3⟩ := h2 k (by omega)
      refine ⟨p, by simp [foldVector, a1], a2, fun j hj i hi => ?_⟩
      rw [a3 j hj i hi, g2]
      unfold el
      rw [List.getElem?_drop]
      congr 2
      ring

/-! ### Solid angles and integrals of a map -/

/-- The planes of a map have its size. -/
structure WMap.Tidy (m : WMap) : Prop where
  planes : m.image.length = m.energies.length
  shape : ∀ p ∈ m.image, Shape p m.n1 m.n2

theorem solidAngles_lazy (Ω : Omega) (m : WMap) (h : m.solid = []) :
    Shape (m.solidAngles Ω) m.n2 m.n1 ∧
      ∀ i < m.n1, ∀ j < m.n2, pix (m.solidAngles Ω) i j = Ω m.crpix m.cdelt (i + 1) (j + 1) := by
  unfold WMap.solidAngles
  rw [h, List.isEmpty_nil, if_pos rfl]
  refine ⟨⟨by simp, fun row hr => ?_⟩, fun i hi j hj => ?_⟩
  · obtain ⟨i, -, rfl⟩ := List.mem_map.1 hr
    simp
  · unfold pix
    rw [List.getElem?_map, List.getElem?_range hi]
    simp only [Option.map_some, Option.getD_some]
    rw [List.getElem?_map, List.getElem?_range hj]
    rfl

theorem energyIntegral_eq {es vs : List ℝ} (h2 : 2 ≤ es.length) (hv : vs.length = es.length) :
    energyIntegral es vs = .ok (∑ k ∈ Finset.range (es.length - 1),
      (el vs (k + 1) * el es (k + 1) + el vs k * el es k) / 2 * Real.log (el es (k + 1) / el es k)) := by
  unfold energyIntegral
  split
  · simp at h2
  · simp at h2
  · rw [Vec.loop_sum (fun k => (el vs (k + 1) * el es (k + 1) + el vs k * el es k) / 2 * Real.log (el es (k + 1) / el es k)) 0]
    · simp
    · intro k s _ hk
      rw [vget_el (by omega), Res.bind_ok, vget_el (by omega), Res.bind_ok, vget_el (by omega), Res.bind_ok,
        vget_el (by omega), Res.bind_ok]

theorem integrals_loop {image : List Plane} {sa : Plane} {n1 n2 n : Nat} (hl : image.length = n) (F : Nat → ℝ)
    (h : ∀ k < n, ∀ p, image[k]? = some p → planeIntegral sa p n1 n2 = .ok (F k)) :
    loop (fun k vs => do
      let p ← vget image k
      let s ← planeIntegral sa p n1 n2
      (.ok (vs ++ [s]) : Res (List ℝ))) 0 n [] = .ok ((List.range n).map F) := by
  have := loop_eq (body := fun k vs => do
      let p ← vget image k
      let s ← planeIntegral sa p n1 n2
      (.ok (vs ++ [s]) : Res (List ℝ))) (fun k => (List.range k).map F) (lo := 0) (n := n) (by
    intro k _ hk
    rw [vget_lt _ _ (by omega), Res.bind_ok, h k (by omega) _ (List.getElem?_eq_getElem (by omega)), Res.bind_ok,
      List.range_succ, List.map_append]
    rfl)
  simpa using this

end Verif.MapInt
