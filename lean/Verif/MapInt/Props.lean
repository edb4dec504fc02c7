import Verif.MapInt.Lemmas
import Mathlib.Algebra.Order.BigOperators.Group.Finset
import Mathlib.Tactic.NormNum
/-
C67: the integrals of a map.
-/
set_option linter.unusedSectionVars false
set_option linter.unusedSimpArgs false
set_option linter.unusedVariables false
namespace Verif.MapInt
open Verif.MapInt.Spec
open scoped BigOperators

/-- The plane with a number. -/
def planeAt (m : WMap) (k : Nat) : Plane := (m.image[k]?).getD []

theorem planeAt_eq {m : WMap} {k : Nat} {p : Plane} (h : m.image[k]? = some p) : planeAt m k = p := by
  unfold planeAt; rw [h]; rfl

/-- A map whose solid angles have not been computed yet (as one read from a file) gets the
integral of each plane over the solid angle, and their integral over energy by the trapezoidal
rule; if there is one plane only its integral. -/
theorem C67_integrals_partial (Ω : Omega) (m : WMap) (h : m.Tidy) (hs : m.solid = []) (he : m.energies ≠ []) (hpos : ∀ e ∈ m.energies, 0 < e) :
    ∃ m', m.computeIntegrals Ω = .ok m' ∧
      (∀ k < m.energies.length, m'.integrals[k]? =
        some (integral (fun i j => Ω m.crpix m.cdelt (i + 1) (j + 1)) (planeAt m k) m.n1 m.n2)) ∧
      m'.integrals.length = m.energies.length ∧
      (m.energies.length = 1 → m'.total = el m'.integrals 0) ∧
      (2 ≤ m.energies.length → m'.total = trapezoid (el m.energies) (el m'.integrals) (m.energies.length - 1)) ∧
      m'.image = m.image ∧ m'.energies = m.energies := by
  obtain ⟨s1, s2⟩ := solidAngles_lazy Ω m hs
  have hp : ∀ k < m.energies.length, ∀ p, m.image[k]? = some p → planeIntegral (m.solidAngles Ω) p m.n1 m.n2 =
      .ok (integral (fun i j => Ω m.crpix m.cdelt (i + 1) (j + 1)) (planeAt m k) m.n1 m.n2) := by
    intro k hk p hp
    rw [planeIntegral_eq s1 (h.shape p (List.mem_of_getElem? hp)), planeAt_eq hp]
    congr 1
    unfold integral
    refine Finset.sum_congr rfl fun j hj => Finset.sum_congr rfl fun i hi => ?_
    rw [s2 i (Finset.mem_range.1 hi) j (Finset.mem_range.1 hj)]
  have hl := integrals_loop h.planes _ hp
  have hel : ∀ k < m.energies.length, el m.energies k ≠ 0 := by
    intro k hk
    unfold el
    rw [List.getElem?_eq_getElem hk]
    exact (hpos _ (List.getElem_mem hk)).ne'
  by_cases h1 : m.energies.length = 1
  · obtain ⟨e0, he0⟩ := List.length_eq_one_iff.1 h1
    have hv : m.computeIntegrals Ω = .ok { m with
        solid := m.solidAngles Ω
        integrals := (List.range m.energies.length).map fun k => integral (fun i j => Ω m.crpix m.cdelt (i + 1) (j + 1)) (planeAt m k) m.n1 m.n2
        total := el ((List.range m.energies.length).map fun k => integral (fun i j => Ω m.crpix m.cdelt (i + 1) (j + 1)) (planeAt m k) m.n1 m.n2) 0 } := by
      unfold WMap.computeIntegrals
      rw [hl, Res.bind_ok, he0]
      simp only [energyIntegral]
      rw [vget_el (by simp), Res.bind_ok]
    refine ⟨_, hv, ?_, by simp, fun _ => rfl, fun h2 => by omega, rfl, rfl⟩
    intro k hk
    simp [List.getElem?_map, List.getElem?_range hk]
  · have h2 : 2 ≤ m.energies.length := by
      have : m.energies.length ≠ 0 := by simpa using he
      omega
    have hv : ∃ t, m.computeIntegrals Ω = .ok { m with
        solid := m.solidAngles Ω
        integrals := (List.range m.energies.length).map fun k => integral (fun i j => Ω m.crpix m.cdelt (i + 1) (j + 1)) (planeAt m k) m.n1 m.n2
        total := t } ∧ t = ∑ k ∈ Finset.range (m.energies.length - 1),
          (el ((List.range m.energies.length).map fun k => integral (fun i j => Ω m.crpix m.cdelt (i + 1) (j + 1)) (planeAt m k) m.n1 m.n2) (k + 1) *
              el m.energies (k + 1) +
            el ((List.range m.energies.length).map fun k => integral (fun i j => Ω m.crpix m.cdelt (i + 1) (j + 1)) (planeAt m k) m.n1 m.n2) k *
              el m.energies k) / 2 * Real.log (el m.energies (k + 1) / el m.energies k) := by
      unfold WMap.computeIntegrals
      rw [hl, Res.bind_ok, energyIntegral_eq h2 (by simp), Res.bind_ok]
      exact ⟨_, rfl, rfl⟩
    obtain ⟨t, hv, ht⟩ := hv
    refine ⟨_, hv, ?_, by simp, fun h => absurd h h1, fun _ => ?_, rfl, rfl⟩
    · intro k hk
      simp [List.getElem?_map, List.getElem?_range hk]
    · show t = _
      rw [ht]
      unfold trapezoid
      refine Finset.sum_congr rfl fun k hk => ?_
      have hk := Finset.mem_range.1 hk
      rw [Real.log_div (hel _ (by omega)) (hel _ (by omega))]
      simp only []
      ring

/-- For planes whose integrals fall as the inverse of the energy the integral over energy is
exact. -/
theorem C67_inverse_energy (E F : Nat → ℝ) (c : ℝ) (n : Nat) (h : ∀ k ≤ n, E k * F k = c) :
    trapezoid E F n = c * (Real.log (E n) - Real.log (E 0)) := by
  induction n with
  | zero => simp [trapezoid]
  | succ n ih =>
    unfold trapezoid at ih ⊢
    rw [Finset.sum_range_succ, ih fun k hk => h k (by omega), h (n + 1) le_rfl, h n (by omega)]
    ring

/-- The integrals of a map without negative pixels are not negative, and larger pixels have
larger integrals. -/
theorem C67_monotone (w : Nat → Nat → ℝ) (p q : Plane) (n1 n2 : Nat) (hw : ∀ i < n1, ∀ j < n2, 0 ≤ w i j)
    (h : ∀ j < n2, ∀ i < n1, pix p j i ≤ pix q j i) : integral w p n1 n2 ≤ integral w q n1 n2 := by
  unfold integral
  refine Finset.sum_le_sum fun j hj => Finset.sum_le_sum fun i hi => ?_
  exact mul_le_mul_of_nonneg_left (h j (Finset.mem_range.1 hj) i (Finset.mem_range.1 hi))
    (hw i (Finset.mem_range.1 hi) j (Finset.mem_range.1 hj))

/-- A map made from a counts map has the solid angles with their indices the other way round
than the integration takes them: unless it is square, the construction reads beyond the end
(here without the conversion to intensities). -/
theorem C67_counts_violates (Ω : Omega) (c : Counts) (periodic : Bool) (h1 : 0 < c.n1) (h2 : 0 < c.n2) (hne : c.n1 ≠ c.n2)
    (he : 2 ≤ c.edges.length) : ofCounts Ω c false periodic = .ub := by
  obtain ⟨g1, g2, g3⟩ := foldPlane_spec c.n1 c.n2 c.angles
  obtain ⟨f1, f2⟩ := foldVector_spec c.n1 c.n2 (c.edges.length - 1) c.data
  obtain ⟨p, p1, p2, -⟩ := f2 0 (by omega)
  have hlen : ∀ l : List ℝ, (binCenters l).length = l.length - 1 := by
    intro l
    induction l with
    | nil => rfl
    | cons a l ih =>
      cases l with
      | nil => rfl
      | cons b l => simp only [binCenters, List.length_cons] at ih ⊢; omega
  unfold ofCounts
  simp only [convert, Bool.false_eq_true, if_false, Res.bind_ok]
  unfold WMap.computeIntegrals
  have hsa : ∀ (b : Bool) (es : List ℝ) (im : List Plane), (⟨b, c.n1, c.n2, c.crpix, c.cdelt, es, im,
      (foldPlane c.n1 c.n2 c.angles).1, [], 0⟩ : WMap).solidAngles Ω = (foldPlane c.n1 c.n2 c.angles).1 := by
    intro b es im
    unfold WMap.solidAngles
    rw [if_neg]
    simp only [List.isEmpty_iff]
    intro h
    have := g1.1
    rw [h] at this
    simp at this
    omega
  rw [hsa]
  simp only [hlen]
  rw [loop_ub (k := 0) (by omega) (fun i s a b => by omega) (fun s => by
    simp only [Nat.zero_add]
    rw [show vget (foldVector c.n1 c.n2 (c.edges.length - 1) c.data) 0 = .ok p from vget_eq_ok.2 p1, Res.bind_ok,
      planeIntegral_ub g1 p2 h1 h2 hne]
    rfl)]
  rfl

/-- A square one gets the integral with the solid angles of the transposed pixels. -/
theorem C67_transposed_violates (sa p : Plane) (n : Nat) (hs : Shape sa n n) (hp : Shape p n n) :
    planeIntegral sa p n n = .ok (integral (fun i j => pix sa i j) p n n) ∧
    (∃ sa p : Plane, Shape sa 2 2 ∧ Shape p 2 2 ∧ (∀ j < 2, ∀ i < 2, 0 < pix sa j i) ∧
      planeIntegral sa p 2 2 ≠ .ok (integral (fun i j => pix sa j i) p 2 2)) := by
  refine ⟨planeIntegral_eq hs hp, [[1, 1], [2, 2]], [[0, 1], [0, 0]], ⟨rfl, by simp⟩, ⟨rfl, by simp⟩, ?_, ?_⟩
  · intro j hj i hi
    have : j = 0 ∨ j = 1 := by omega
    have : i = 0 ∨ i = 1 := by omega
    rcases ‹j = 0 ∨ j = 1› with rfl | rfl <;> rcases ‹i = 0 ∨ i = 1› with rfl | rfl <;> simp [pix]
  · rw [planeIntegral_eq (show Shape [[1, 1], [2, 2]] 2 2 from ⟨rfl, by simp⟩) (show Shape [[0, 1], [0, 0]] 2 2 from ⟨rfl, by simp⟩)]
    simp only [integral, Finset.sum_range_succ, Finset.sum_range_zero, pix]
    norm_num

/-! ### The integral at an energy -/

/-- Hypotheses: increasing positive energies, at least two, and positive integrals. -/
structure WMap.Graded (m : WMap) : Prop where
  two : 2 ≤ m.energies.length
  len : m.integrals.length = m.energies.length
  sorted : m.energies.Pairwise (· < ·)
  pos : ∀ e ∈ m.energies, 0 < e

theorem WMap.Graded.lt {m : WMap} (h : m.Graded) {i j : Nat} (hij : i < j) (hj : j < m.energies.length) :
    m.energies[i] < m.energies[j] := List.pairwise_iff_getElem.1 h.sorted i j (by omega) hj hij

theorem upperBound_eq {m : WMap} (h : m.Graded) {k : Nat} (hk : k < m.energies.length) {e : ℝ}
    (h1 : m.energies[k] ≤ e) (h2 : ∀ (hk' : k + 1 < m.energies.length), e < m.energies[k + 1]) :
    upperBound m.energies e = k + 1 := by
  classical
  have key : ∀ q : ℝ → Bool, (∀ b, q b = true ↔ e < b) → m.energies.findIdx q = k + 1 := by
    intro q hq
    apply le_antisymm
    · by_contra hc
      rw [not_le] at hc
      have hl : k + 1 < m.energies.length := lt_of_lt_of_le hc List.findIdx_le_length
      have := List.not_of_lt_findIdx hc
      rw [Bool.eq_false_iff, ne_eq, hq] at this
      exact this (h2 hl)
    · by_contra hc
      rw [not_le] at hc
      have hl : m.energies.findIdx q < m.energies.length := by omega
      have ht := List.findIdx_getElem (w := hl)
      rw [hq] at ht
      rcases Nat.lt_or_ge (m.energies.findIdx q) k with hlt | hge
      · have := h.lt hlt hk
        linarith
      · have : m.energies.findIdx q = k := by omega
        simp only [this] at ht
        linarith
  unfold upperBound
  exact key _ fun b => by simp

/-- At the energies of the planes the integral is that of the plane. -/
theorem C67_at (m : WMap) (h : m.Graded) (k : Nat) (hk : k < m.energies.length) :
    m.mapIntegral m.energies[k] = .ok (el m.integrals k) := by
  have hu := upperBound_eq h hk le_rfl fun hk' => h.lt (show k < k + 1 by omega) hk'
  have h2 := h.two
  unfold WMap.mapIntegral
  rw [hu, if_pos (by omega), Nat.add_sub_cancel]
  simp only []
  rw [List.getElem?_eq_getElem hk]
  simp only []
  rw [if_pos trivial, List.getElem?_eq_getElem (by rw [h.len]; exact hk)]
  simp only [el]
  rw [List.getElem?_eq_getElem (by rw [h.len]; exact hk)]
  rfl

/-- In between it is the power law through the neighbours, and lies between them. -/
theorem C67_between_partial (m : WMap) (h : m.Graded) (k : Nat) (hk : k + 1 < m.energies.length) (e : ℝ)
    (h1 : m.energies[k] < e) (h2 : e < m.energies[k + 1]) (p1 : 0 < el m.integrals k) (p2 : 0 < el m.integrals (k + 1)) :
    ∃ v, m.mapIntegral e = .ok v ∧
      (Real.log v - Real.log (el m.integrals k)) * (Real.log m.energies[k + 1] - Real.log m.energies[k]) =
        (Real.log (el m.integrals (k + 1)) - Real.log (el m.integrals k)) * (Real.log e - Real.log m.energies[k]) ∧
      min (el m.integrals k) (el m.integrals (k + 1)) ≤ v ∧ v ≤ max (el m.integrals k) (el m.integrals (k + 1)) := by
  have hu := upperBound_eq h (show k < m.energies.length by omega) h1.le fun _ => h2
  have hl := h.len
  have e0 := h.pos _ (List.getElem_mem (show k < m.energies.length by omega))
  have e1 := h.pos _ (List.getElem_mem hk)
  have he : 0 < e := by linarith
  have hL : 0 < Real.log (m.energies[k + 1] / m.energies[k]) := Real.log_pos ((one_lt_div e0).2 (by linarith))
  have hval : m.mapIntegral e = .ok (el m.integrals k * Real.exp (Real.log (e / m.energies[k]) /
      Real.log (m.energies[k + 1] / m.energies[k]) * Real.log (el m.integrals (k + 1) / el m.integrals k))) := by
    unfold WMap.mapIntegral
    rw [hu, if_pos (by omega), Nat.add_sub_cancel]
    simp only []
    rw [List.getElem?_eq_getElem (show k < m.energies.length by omega)]
    simp only []
    rw [if_neg h1.ne', if_neg (show ¬ m.energies.length = 1 by omega), if_neg (show ¬ k = m.energies.length - 1 by omega),
      vget_el (by omega), Res.bind_ok, vget_el (by omega), Res.bind_ok, vget_lt _ _ (by omega), Res.bind_ok,
      vget_lt _ _ hk, Res.bind_ok]
    rw [if_neg p1.ne', if_neg p2.ne']
  refine ⟨_, hval, ?_, ?_⟩
  · rw [Real.log_mul p1.ne' (Real.exp_ne_zero _), Real.log_exp, ← Real.log_div e1.ne' e0.ne', ← Real.log_div p2.ne' p1.ne',
      ← Real.log_div he.ne' e0.ne']
    field_simp
    ring
  · have t0 : 0 ≤ Real.log (e / m.energies[k]) / Real.log (m.energies[k + 1] / m.energies[k]) :=
      div_nonneg (Real.log_nonneg ((one_le_div e0).2 h1.le)) hL.le
    have t1 : Real.log (e / m.energies[k]) / Real.log (m.energies[k + 1] / m.energies[k]) ≤ 1 := by
      rw [div_le_one hL]
      exact Real.log_le_log (div_pos he e0) (by gcongr)
    generalize Real.log (e / m.energies[k]) / Real.log (m.energies[k + 1] / m.energies[k]) = t at t0 t1
    generalize el m.integrals k = y1 at p1
    generalize el m.integrals (k + 1) = y2 at p2
    have hend : y1 * Real.exp (Real.log (y2 / y1)) = y2 := by
      rw [Real.exp_log (div_pos p2 p1)]
      field_simp
    rcases le_total y1 y2 with hle | hle
    · have hg : 0 ≤ Real.log (y2 / y1) := Real.log_nonneg ((one_le_div p1).2 hle)
      rw [min_eq_left hle, max_eq_right hle]
      constructor
      · have : 1 ≤ Real.exp (t * Real.log (y2 / y1)) := Real.one_le_exp (mul_nonneg t0 hg)
        nlinarith
      · calc y1 * Real.exp (t * Real.log (y2 / y1)) ≤ y1 * Real.exp (Real.log (y2 / y1)) := by
              apply mul_le_mul_of_nonneg_left _ p1.le
              apply Real.exp_le_exp.2
              nlinarith
          _ = y2 := hend
    · have hg : Real.log (y2 / y1) ≤ 0 := Real.log_nonpos (div_nonneg p2.le p1.le) ((div_le_one p1).2 hle)
      rw [min_eq_right hle, max_eq_left hle]
      constructor
      · calc y2 = y1 * Real.exp (Real.log (y2 / y1)) := hend.symm
          _ ≤ y1 * Real.exp (t * Real.log (y2 / y1)) := by
              apply mul_le_mul_of_nonneg_left _ p1.le
              apply Real.exp_le_exp.2
              nlinarith
      · have : Real.exp (t * Real.log (y2 / y1)) ≤ 1 := Real.exp_le_one_iff.2 (mul_nonpos_of_nonneg_of_nonpos t0 hg)
        nlinarith

/-- Above a plane that is empty, or has an empty one above it, there is no number or zero. -/
theorem C67_empty_violates (m : WMap) (h : m.Graded) (k : Nat) (hk : k + 1 < m.energies.length) (e : ℝ)
    (h1 : m.energies[k] < e) (h2 : e < m.energies[k + 1]) :
    (el m.integrals k = 0 → m.mapIntegral e = .ub) ∧
    (0 < el m.integrals k → el m.integrals (k + 1) = 0 → m.mapIntegral e = .ok 0) := by
  have hu := upperBound_eq h (show k < m.energies.length by omega) h1.le fun _ => h2
  have hl := h.len
  have e0 := h.pos _ (List.getElem_mem (show k < m.energies.length by omega))
  have hL : 0 < Real.log (m.energies[k + 1] / m.energies[k]) := Real.log_pos ((one_lt_div e0).2 (by linarith))
  have t0 : 0 < Real.log (e / m.energies[k]) / Real.log (m.energies[k + 1] / m.energies[k]) :=
      div_pos (Real.log_pos ((one_lt_div e0).2 h1)) hL
  constructor
  · intro hz
    unfold WMap.mapIntegral
    rw [hu, if_pos (by omega), Nat.add_sub_cancel]
    simp only []
    rw [List.getElem?_eq_getElem (show k < m.energies.length by omega)]
    simp only []
    rw [if_neg h1.ne', if_neg (show ¬ m.energies.length = 1 by omega), if_neg (show ¬ k = m.energies.length - 1 by omega),
      vget_el (by omega), Res.bind_ok, vget_el (by omega), Res.bind_ok, vget_lt _ _ (by omega), Res.bind_ok,
      vget_lt _ _ hk, Res.bind_ok]
    rw [if_pos hz]
  · intro hp hz
    unfold WMap.mapIntegral
    rw [hu, if_pos (by omega), Nat.add_sub_cancel]
    simp only []
    rw [List.getElem?_eq_getElem (show k < m.energies.length by omega)]
    simp only []
    rw [if_neg h1.ne', if_neg (show ¬ m.energies.length = 1 by omega), if_neg (show ¬ k = m.energies.length - 1 by omega),
      vget_el (by omega), Res.bind_ok, vget_el (by omega), Res.bind_ok, vget_lt _ _ (by omega), Res.bind_ok,
      vget_lt _ _ hk, Res.bind_ok]
    rw [if_neg hp.ne', if_pos hz, if_pos t0]

/-- A map with one plane has an integral at the energy of the plane only. -/
theorem C67_single_violates (m : WMap) (e0 e v : ℝ) (hen : m.energies = [e0]) (hi : m.integrals = [v]) :
    m.mapIntegral e0 = .ok v ∧ (e ≠ e0 → m.mapIntegral e = .ub) := by
  constructor
  · unfold WMap.mapIntegral
    rw [hen, hi]
    simp
  · intro hne
    unfold WMap.mapIntegral
    rw [hen, hi]
    simp [hne]

/-- A graded map with the integrals seven and three. -/
example : (⟨false, 1, 1, (0, 0), (1, 1), [100, 1000], [[[7]], [[3]]], [], [7, 3], 0⟩ : WMap).Graded ∧
    (⟨false, 1, 1, (0, 0), (1, 1), [100, 1000], [[[7]], [[3]]], [], [7, 3], 0⟩ : WMap).Tidy := by
  refine ⟨⟨by simp, rfl, by simp; norm_num, by simp⟩, ⟨rfl, ?_⟩⟩
  intro p hp
  simp only [List.mem_cons, List.not_mem_nil, or_false] at hp
  rcases hp with rfl | rfl <;> exact ⟨rfl, by simp⟩

/-- A counts map of two pixels in a row. -/
example (Ω : Omega) : ofCounts Ω ⟨2, 1, (0, 0), (1, 1), [100, 1000], [5, 6], [1, 1]⟩ false false = .ub :=
  C67_counts_violates Ω _ false (by simp) (by simp) (by simp) (by simp)

end Verif.MapInt
