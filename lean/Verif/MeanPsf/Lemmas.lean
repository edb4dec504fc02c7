import Verif.MeanPsf.Model
import Verif.MeanPsf.Spec
import Verif.Vec
import Mathlib.MeasureTheory.Integral.IntervalIntegral.FundThmCalculus
import Mathlib.MeasureTheory.Integral.DominatedConvergence
import Mathlib.Analysis.Calculus.Deriv.Pow
import Mathlib.Analysis.Calculus.Deriv.Mul
set_option linter.unusedSimpArgs false
set_option linter.unusedVariables false
set_option linter.unusedSectionVars false
/-
The table and the partial integrals in closed form, and the area under a polygon.
-/
namespace Verif.MeanPsf
open Real Spec Verif.Vec

theorem el_val (l : List ℝ) (i : Nat) : el l i = val l i := rfl

theorem vat_el {l : List ℝ} {i : Nat} (h : i < l.length) : vat l i = .ok (el l i) := by
  rw [vat, getElem?_val h]; rfl

theorem vget_el {l : List ℝ} {i : Nat} (h : i < l.length) : vget l i = .ok (el l i) := vget_val h

/-! ### The grid -/

variable {seps : List ℝ}

theorem grid_lt (h : Grid seps) {i j : Nat} (hij : i < j) (hj : j < seps.length) : el seps i < el seps j :=
  pairwise_val.1 h.inc i j hij hj

theorem grid_le (h : Grid seps) {i j : Nat} (hij : i ≤ j) (hj : j < seps.length) : el seps i ≤ el seps j := by
  rcases Nat.eq_or_lt_of_le hij with e | e
  · rw [e]
  · exact (grid_lt h e hj).le

theorem rad_lt {a b : ℝ} (h : a < b) : rad a < rad b := by
  unfold rad
  have := pi_pos
  have := mul_lt_mul_of_pos_right h this
  linarith

theorem rad_le {a b : ℝ} (h : a ≤ b) : rad a ≤ rad b := by
  rcases h.eq_or_lt with e | e
  · rw [e]
  · exact (rad_lt e).le

theorem sin_nonneg (h : Grid seps) {j : Nat} (hj : j < seps.length) : 0 ≤ sin (rad (el seps j)) := by
  have h1 : 0 ≤ el seps j := h.lo.trans (grid_le h (Nat.zero_le j) hj)
  have h2 : el seps j ≤ 180 := (grid_le h (show j ≤ seps.length - 1 by omega) (by omega)).trans h.hi
  apply sin_nonneg_of_nonneg_of_le_pi
  · unfold rad; have := pi_pos; positivity
  · unfold rad; nlinarith [pi_pos]

/-- `upper_bound` is determined by what it separates. -/
theorem upperBound_eq {b : List ℝ} {x : ℝ} {k : Nat} (hk : k ≤ b.length) (h1 : ∀ i < k, el b i ≤ x)
    (h2 : k < b.length → x < el b k) : upperBound b x = k := by
  unfold upperBound
  rcases Nat.eq_or_lt_of_le hk with e | e
  · rw [e, List.findIdx_eq_length]
    intro y hy
    obtain ⟨i, hi, rfl⟩ := mem_val hy
    have := h1 i (by omega)
    rw [el_val] at this
    simpa using this
  · rw [List.findIdx_eq e]
    refine ⟨?_, ?_⟩
    · have := h2 e
      rw [el_val, val_lt e] at this
      simpa using this
    · intro i hi
      have := h1 i hi
      rw [el_val, val_lt (by omega)] at this
      simpa using this

/-- An angle inside the grid lies in one of its intervals. -/
theorem interval_of (h : Grid seps) {a : ℝ} (h1 : el seps 0 ≤ a) (h2 : a < el seps (seps.length - 1)) :
    ∃ j, j + 1 < seps.length ∧ el seps j ≤ a ∧ a < el seps (j + 1) ∧ upperBound seps a = j + 1 := by
  have key : ∀ m, m < seps.length → a < el seps m → ∃ j, j < m ∧ el seps j ≤ a ∧ a < el seps (j + 1) := by
    intro m
    induction m with
    | zero => intro _ h; exact absurd h1 (not_le.2 h)
    | succ m ih =>
      intro hm ha
      by_cases hc : a < el seps m
      · obtain ⟨j, g1, g2⟩ := ih (by omega) hc
        exact ⟨j, by omega, g2⟩
      · exact ⟨m, by omega, not_lt.1 hc, ha⟩
  have := h.two
  obtain ⟨j, g1, g2, g3⟩ := key _ (by omega) h2
  refine ⟨j, by omega, g2, g3, upperBound_eq (by omega) (fun i hi => ?_) fun _ => g3⟩
  exact (grid_le h (by omega) (by omega)).trans g2

/-! ### Straight lines -/

theorem line_eq (t1 t2 y1 y2 t : ℝ) :
    lineIntegral t1 t2 y1 y2 t = y1 * (t - t1) + (y2 - y1) / (t2 - t1) * (t - t1) ^ 2 / 2 := by
  unfold lineIntegral; ring

theorem line_div (t1 t2 y1 y2 t d : ℝ) :
    lineIntegral t1 t2 (y1 / d) (y2 / d) t = lineIntegral t1 t2 y1 y2 t / d := by
  rw [line_eq, line_eq]; ring

theorem ringY_div (p d t : ℝ) : ringY (p / d) t = ringY p t / d := by unfold ringY; ring

theorem line_deriv (t1 t2 y1 y2 s : ℝ) :
    HasDerivAt (fun s => lineIntegral t1 t2 y1 y2 s) (y1 + (y2 - y1) * ((s - t1) / (t2 - t1))) s := by
  have h1 : HasDerivAt (fun s : ℝ => s - t1) 1 s := (hasDerivAt_id s).sub_const t1
  have h := (h1.const_mul y1).fun_add (((h1.fun_pow 2).const_mul ((y2 - y1) / (t2 - t1))).div_const 2)
  have e : (fun s => lineIntegral t1 t2 y1 y2 s) =
      fun s => y1 * (s - t1) + (y2 - y1) / (t2 - t1) * (s - t1) ^ 2 / 2 := funext fun s => line_eq ..
  rw [e]
  refine h.congr_deriv ?_
  simp; ring

/-! ### The area under a polygon -/

/-- The area up to angle number `j`. -/
noncomputable def cum (seps : List ℝ) (p : Nat → ℝ) : Nat → ℝ
  | 0 => 0
  | j + 1 => cum seps p j + lineIntegral (rad (el seps j)) (rad (el seps (j + 1))) (ring seps p j)
      (ring seps p (j + 1)) (rad (el seps (j + 1)))

variable {p : Nat → ℝ} {g : ℝ → ℝ}

/-- The line through two points is integrable, and its integral is `lineIntegral`. -/
theorem seg_area (h : Grid seps) (hg : Polygon seps (ring seps p) g) {j : Nat} (hj : j + 1 < seps.length) {t : ℝ}
    (h1 : rad (el seps j) ≤ t) (h2 : t ≤ rad (el seps (j + 1))) :
    IntervalIntegrable g MeasureTheory.volume (rad (el seps j)) t ∧
      ∫ s in rad (el seps j)..t, g s = lineIntegral (rad (el seps j)) (rad (el seps (j + 1))) (ring seps p j)
        (ring seps p (j + 1)) t := by
  set t1 := rad (el seps j)
  set t2 := rad (el seps (j + 1))
  set y1 := ring seps p j
  set y2 := ring seps p (j + 1)
  have hc : Continuous fun s : ℝ => y1 + (y2 - y1) * ((s - t1) / (t2 - t1)) := by fun_prop
  have heq : Set.EqOn (fun s : ℝ => y1 + (y2 - y1) * ((s - t1) / (t2 - t1))) g (Set.uIcc t1 t) := by
    intro s hs
    rw [Set.uIcc_of_le h1] at hs
    exact (hg j hj s ⟨hs.1, hs.2.trans h2⟩).symm
  have hi := hc.intervalIntegrable (μ := MeasureTheory.volume) t1 t
  refine ⟨hi.congr (heq.mono Set.uIoc_subset_uIcc), ?_⟩
  rw [← intervalIntegral.integral_congr heq,
    intervalIntegral.integral_eq_sub_of_hasDerivAt (fun s _ => line_deriv t1 t2 y1 y2 s) hi]
  simp [line_eq]

theorem node_area (h : Grid seps) (hg : Polygon seps (ring seps p) g) {j : Nat} (hj : j < seps.length) :
    IntervalIntegrable g MeasureTheory.volume (rad (el seps 0)) (rad (el seps j)) ∧
      ∫ s in rad (el seps 0)..rad (el seps j), g s = cum seps p j := by
  induction j with
  | zero => simp [cum]
  | succ j ih =>
    obtain ⟨i1, i2⟩ := ih (by omega)
    obtain ⟨s1, s2⟩ := seg_area h hg hj (rad_le (grid_le h (Nat.le_succ j) hj)) le_rfl
    exact ⟨i1.trans s1, by rw [← intervalIntegral.integral_add_adjacent_intervals i1 s1, i2, s2, cum]⟩

/-- The area up to an angle in interval `j`. -/
theorem area_eq (h : Grid seps) (hg : Polygon seps (ring seps p) g) {j : Nat} (hj : j + 1 < seps.length) {a : ℝ}
    (h1 : el seps j ≤ a) (h2 : a ≤ el seps (j + 1)) :
    area seps g a = cum seps p j + lineIntegral (rad (el seps j)) (rad (el seps (j + 1))) (ring seps p j)
      (ring seps p (j + 1)) (rad a) := by
  obtain ⟨i1, i2⟩ := node_area h hg (j := j) (by omega)
  obtain ⟨s1, s2⟩ := seg_area h hg hj (rad_le h1) (rad_le h2)
  rw [area, ← intervalIntegral.integral_add_adjacent_intervals i1 s1, i2, s2]

theorem whole_eq (h : Grid seps) (hg : Polygon seps (ring seps p) g) :
    whole seps g = cum seps p (seps.length - 1) := by
  have := h.two
  rw [whole, area, (node_area h hg (by omega)).2]

/-! ### The loops -/

/-- What the row is divided by. -/
noncomputable def divisor (seps : List ℝ) (p : Nat → ℝ) : ℝ :=
  if cum seps p (seps.length - 1) = 0 then 1 else cum seps p (seps.length - 1)

/-- Row `k` of a table. -/
def row (seps psf : List ℝ) (k : Nat) (j : Nat) : ℝ := el psf (k * seps.length + j)

theorem partial_loop (h : Grid seps) {psf : List ℝ} {k : Nat} {q : Nat → ℝ}
    (hl : k * seps.length + seps.length ≤ psf.length) (hq : ∀ j < seps.length, row seps psf k j = q j) :
    loop (partialBody seps psf k) 0 (seps.length - 1) [0] = .ok ((List.range seps.length).map (cum seps q)) := by
  have h2 := h.two
  have := loop_eq (body := partialBody seps psf k) (lo := 0) (n := seps.length - 1)
    (fun i => (List.range (i + 1)).map (cum seps q)) (by
      intro i _ hi
      rw [partialBody]
      simp only []
      rw [vat_el (show i < seps.length by omega), Res.bind_ok, vat_el (show i + 1 < seps.length by omega),
        Res.bind_ok, vat_el (show k * seps.length + i < psf.length by omega), Res.bind_ok,
        vat_el (show k * seps.length + i + 1 < psf.length by omega), Res.bind_ok]
      have e1 : vget ((List.range (i + 1)).map (cum seps q)) (((List.range (i + 1)).map (cum seps q)).length - 1)
          = .ok (cum seps q i) := by
        rw [vget_val (by simp)]; simp [val_map_range]
      rw [e1, Res.bind_ok, List.range_succ (n := i + 1), List.map_append]
      have a1 := hq i (by omega)
      have a2 := hq (i + 1) (by omega)
      unfold row at a1 a2
      rw [← Nat.add_assoc] at a2
      simp only [List.map_cons, List.map_nil, cum, ringY, ring, rad, a1, a2])
  simpa [cum, Nat.sub_add_cancel (show 1 ≤ seps.length by omega)] using this

theorem norm_ok (h : Grid seps) {psf : List ℝ} {k : Nat} {q : Nat → ℝ}
    (hl : k * seps.length + seps.length ≤ psf.length) :
    ∃ psf', normalise seps.length k psf ((List.range seps.length).map (cum seps q)) =
        .ok (psf', (List.range seps.length).map fun j => cum seps q j / divisor seps q) ∧
      psf'.length = psf.length ∧
      ∀ i, el psf' i = if k * seps.length ≤ i ∧ i < k * seps.length + seps.length then el psf i / divisor seps q
        else el psf i := by
  have h2 := h.two
  set n := seps.length
  set T := cum seps q (n - 1) with hT
  have e1 : vget ((List.range n).map (cum seps q)) (((List.range n).map (cum seps q)).length - 1) = .ok T := by
    rw [vget_val (by simp; omega)]; simp only [List.length_map, List.length_range]; rw [val_map_range _ (by omega)]
  rw [normalise, e1, Res.bind_ok]
  by_cases hz : T = 0
  · have hd : divisor seps q = 1 := by rw [divisor, if_pos hz]
    rw [if_neg (by simpa using hz)]
    refine ⟨psf, by simp [hd], rfl, fun i => by simp [hd]⟩
  · have hd : divisor seps q = T := by rw [divisor, if_neg hz]
    rw [if_pos hz, hd]
    obtain ⟨s, l1, l2, l3, l4⟩ := loop_inv (body := normBody n k) (lo := 0) (n := n)
      (s := (psf, (List.range n).map (cum seps q)))
      (fun i s => s.1.length = psf.length ∧
        s.2 = (List.range n).map (fun j => if j < i then cum seps q j / T else cum seps q j) ∧
        ∀ x, el s.1 x = if k * n ≤ x ∧ x < k * n + i then el psf x / T else el psf x)
      ⟨rfl, by simp, fun x => by rw [if_neg (by omega)]⟩
      (by
        rintro i ⟨s1, s2⟩ _ hi ⟨c1, c2, c3⟩
        simp only at c1 c2 c3
        have b1 : vget s2 (s2.length - 1) = .ok T := by
          rw [c2, vget_val (by simp; omega)]
          simp only [List.length_map, List.length_range]
          rw [val_map_range _ (by omega), if_neg (by omega)]
        have b2 : vget s2 i = .ok (cum seps q i) := by
          rw [c2, vget_val (by simp; omega), val_map_range _ (by omega), if_neg (by omega)]
        have b3 : k * n + i < s1.length := by omega
        refine ⟨(s1.set (k * n + i) (el s1 (k * n + i) / T), s2.set i (cum seps q i / T)), ?_, ?_, ?_, ?_⟩
        · rw [normBody]
          simp only []
          rw [b1, Res.bind_ok, vat_el b3, Res.bind_ok, b2, Res.bind_ok, vset_lt _ _ _ (by rw [c2]; simp; omega),
            Res.bind_ok]
        · simp [c1]
        · apply ext_val (by simp [c2])
          intro j hj
          rw [c2] at hj ⊢
          simp only [List.length_set, List.length_map, List.length_range] at hj
          rw [val_set (by simp; omega), val_map_range _ hj, val_map_range _ hj]
          by_cases e : j = i
          · subst e; simp
          · rw [if_neg e]
            by_cases e2 : j < i
            · rw [if_pos e2, if_pos (by omega)]
            · rw [if_neg e2, if_neg (by omega)]
        · intro x
          show val (s1.set (k * n + i) (el s1 (k * n + i) / T)) x = _
          rw [val_set b3]
          by_cases e : x = k * n + i
          · subst e
            rw [if_pos rfl, if_pos (by omega), c3, if_neg (by omega)]
          · rw [if_neg e, ← el_val, c3]
            by_cases e2 : k * n ≤ x ∧ x < k * n + i
            · rw [if_pos e2, if_pos (by omega)]
            · rw [if_neg e2, if_neg (by omega)])
    obtain ⟨s1, s2⟩ := s
    simp only [Nat.zero_add] at l1 l2 l3 l4
    refine ⟨s1, ?_, l2, l4⟩
    rw [l1, l3]
    congr 2
    apply List.map_congr_left
    intro j hj
    rw [if_pos (List.mem_range.1 hj)]

/-- The object in closed form. -/
theorem build_ok (h : Grid seps) {energies psf : List ℝ} (hl : psf.length = energies.length * seps.length) :
    ∃ m, build seps energies psf = .ok m ∧ m.seps = seps ∧ m.energies = energies ∧ m.psf.length = psf.length ∧
      (∀ k < energies.length, ∀ j < seps.length,
        row seps m.psf k j = row seps psf k j / divisor seps (row seps psf k)) ∧
      m.parts = (List.range energies.length).map fun k => (List.range seps.length).map fun j =>
        cum seps (row seps psf k) j / divisor seps (row seps psf k) := by
  have h2 := h.two
  set n := seps.length with hn
  obtain ⟨⟨s1, s2⟩, l1, l2, l3, l4⟩ := loop_inv (body := rowBody seps) (lo := 0) (n := energies.length)
    (s := (psf, []))
    (fun i s => s.1.length = psf.length ∧
      (∀ k < energies.length, ∀ j < n, row seps s.1 k j =
        if k < i then row seps psf k j / divisor seps (row seps psf k) else row seps psf k j) ∧
      s.2 = (List.range i).map fun k => (List.range n).map fun j =>
        cum seps (row seps psf k) j / divisor seps (row seps psf k))
    ⟨rfl, fun k _ j _ => by simp, by simp⟩
    (by
      rintro i ⟨s1, s2⟩ _ hi ⟨c1, c2, c3⟩
      simp only [Nat.zero_add] at hi c1 c2 c3
      have hb : i * n + n ≤ s1.length := by
        rw [c1, hl]
        calc i * n + n = (i + 1) * n := by rw [Nat.add_mul, Nat.one_mul]
          _ ≤ energies.length * n := Nat.mul_le_mul_right _ hi
      obtain ⟨psf', n1, n2, n3⟩ := norm_ok h (psf := s1) (k := i) (q := row seps psf i) hb
      refine ⟨(psf', s2 ++ [(List.range n).map fun j =>
        cum seps (row seps psf i) j / divisor seps (row seps psf i)]), ?_, ?_, ?_, ?_⟩
      · rw [rowBody, partial_loop h (q := row seps psf i) hb (fun j hj => by rw [c2 i hi j hj, if_neg (lt_irrefl _)]),
          Res.bind_ok, n1, Res.bind_ok]
      · simp [n2, c1]
      · intro k hk j hj
        show el psf' (k * n + j) = _
        rw [n3]
        by_cases e : k = i
        · subst e
          rw [if_pos (show k * seps.length ≤ k * n + j ∧ k * n + j < k * seps.length + seps.length by rw [← hn]; omega),
            if_pos (by omega)]
          have := c2 k hk j hj
          rw [if_neg (lt_irrefl _)] at this
          rw [← this]; rfl
        · have : ¬ (i * n ≤ k * n + j ∧ k * n + j < i * n + n) := by
            rintro ⟨g1, g2⟩
            have := idx_inj (k := k) (p := j) (k' := i) (p' := k * n + j - i * n) hj (by omega) (by omega)
            exact e this.1
          rw [if_neg this]
          have := c2 k hk j hj
          unfold row at this
          rw [← hn] at this
          rw [this]
          by_cases e2 : k < i
          · rw [if_pos e2, if_pos (by omega)]; rfl
          · rw [if_neg e2, if_neg (by omega)]; rfl
      · rw [c3, List.range_succ, List.map_append]; simp)
  simp only [Nat.zero_add] at l1 l2 l3 l4
  refine ⟨⟨seps, energies, s1, s2⟩, ?_, rfl, rfl, l2, ?_, l4⟩
  · rw [build, l1, Res.bind_ok]
  · intro k hk j hj
    rw [l3 k hk j hj, if_pos hk]

end Verif.MeanPsf
