import Verif.ExpMap.Lemmas
set_option linter.unusedSectionVars false
set_option linter.unusedSimpArgs false
set_option linter.unusedVariables false
/-
C84: the exposure of a diffuse source.
-/
namespace Verif.ExpMap
open Verif Verif.Vec Real Spec

variable {D : Type} {n : Nat} {d : Fin n → D} {w : Fin n → ℝ} {es : List ℝ} {y : Nat → Fin n → ℝ}

theorem exGrid : Grid [(1 : ℝ), 2, 4] := by
  refine ⟨by norm_num, ?_, ?_⟩
  · intro e he
    simp only [List.mem_cons, List.not_mem_nil, or_false] at he
    rcases he with rfl | rfl | rfl <;> norm_num
  · simp only [List.pairwise_cons, List.mem_cons, List.not_mem_nil, or_false, forall_eq_or_imp, forall_eq,
      IsEmpty.forall_iff, implies_true, List.Pairwise.nil, and_true]
    norm_num

/-- Between two energies of the map the exposure of each pixel is interpolated linearly in the
logarithm of the energy; at an energy of the map it is that of the map. -/
theorem C84_between (h : Grid es) {e : ℝ} {k : Nat} {a b : ℝ} (hk : es[k]? = some a)
    (hk' : es[k + 1]? = some b) (h1 : a ≤ e) (h2 : e ≤ b) (dist : D → ℝ → ℝ) :
    ∃ t, 0 ≤ t ∧ t ≤ 1 ∧ log e = (1 - t) * log a + t * log b ∧
      exposureAt (emap d w es y) dist e = .ok (total Finset.univ (fun j => (1 - t) * y k j + t * y (k + 1) j)
        (fun j => dist (d j) e) w) := by
  have hka : k + 1 < es.length := (List.getElem?_eq_some_iff.1 hk').1
  have ea : val es k = a := by unfold val; rw [hk]; rfl
  have eb : val es (k + 1) = b := by unfold val; rw [hk']; rfl
  have ha : 0 < a := ea ▸ grid_pos h (by omega)
  have hab : a < b := ea ▸ eb ▸ grid_lt h (by omega) hka
  have hb : 0 < b := ha.trans hab
  have he : 0 < e := ha.trans_le h1
  have hl : 0 < log b - log a := sub_pos.2 (log_lt_log ha hab)
  refine ⟨(log e - log a) / (log b - log a), ?_, ?_, ?_, ?_⟩
  · exact div_nonneg (sub_nonneg.2 (log_le_log ha h1)) hl.le
  · rw [div_le_one hl]; linarith [log_le_log he h2]
  · field_simp; ring
  · obtain ⟨i, g1, g2, g3, g4⟩ := upperIndex_eq h e
    have a1 := g3 ((grid_le h (Nat.zero_le k) (by omega)).trans (ea ▸ h1))
    have a2 := g4 ((eb ▸ h2).trans (grid_le h (show k + 1 ≤ es.length - 1 by omega) (by omega)))
    have hp := exposureAt_eq (d := d) (w := w) (y := y) h g2 g1 dist
    rw [hp]
    have pi := grid_pos h (show i < es.length by omega)
    have pi' := grid_pos h g2
    -- the interval found, or the neighbour that shares the energy
    rcases Nat.lt_trichotomy i k with c | c | c
    · have : e = a := by
        refine le_antisymm ?_ h1
        exact a2.trans (ea ▸ grid_le h (by omega) (by omega))
      subst this
      have hik : i + 1 = k := by
        by_contra hne
        exact absurd (grid_lt h (show i + 1 < k by omega) (by omega)) (not_lt.2 (ea ▸ a2))
      subst hik
      rw [sub_self, zero_div, ea, div_self (log_pos ((one_lt_div pi).2 (ea ▸ grid_lt h (by omega) g2))).ne']
      congr 2
      ext j; ring
    · subst c
      rw [ea, eb, log_div he.ne' ha.ne', log_div hb.ne' ha.ne']
      congr 2
      ext j; ring
    · have : e = b := by
        refine le_antisymm h2 ?_
        exact (eb ▸ grid_le h (show k + 1 ≤ i by omega) (by omega)).trans a1
      subst this
      have hik : i = k + 1 := by
        by_contra hne
        exact absurd (grid_lt h (show k + 1 < i by omega) (by omega)) (not_lt.2 (eb ▸ a1))
      subst hik
      rw [eb, div_self he.ne', log_one, zero_div, div_self hl.ne']
      congr 2
      ext j; ring

example : ∃ t, 0 ≤ t ∧ t ≤ 1 ∧ log 3 = (1 - t) * log 2 + t * log 4 ∧
    exposureAt (emap (fun j : Fin 2 => (j : Nat)) (fun _ => 1) [1, 2, 4] fun k j => (k : ℝ) + (j : Nat))
      (fun _ e => e) 3 = .ok (total Finset.univ (fun j : Fin 2 => (1 - t) * (((1 : Nat) : ℝ) + (j : Nat)) +
        t * (((1 + 1 : Nat) : ℝ) + (j : Nat))) (fun _ => 3) fun _ => 1) :=
  C84_between exGrid (k := 1) rfl rfl (by norm_num) (by norm_num) _

/-- At an energy of the map the exposure of the source is the sum over the pixels of exposure, source
and solid angle. -/
theorem C84_grid (h : Grid es) {k : Nat} {e : ℝ} (hk : es[k]? = some e) (dist : D → ℝ → ℝ) :
    exposureAt (emap d w es y) dist e = .ok (total Finset.univ (y k) (fun j => dist (d j) e) w) := by
  have hlt : k < es.length := (List.getElem?_eq_some_iff.1 hk).1
  have ek : val es k = e := by unfold val; rw [hk]; rfl
  have h2 := h.two
  by_cases hc : k + 1 < es.length
  · have hlt' := grid_lt h (Nat.lt_succ_self k) hc
    obtain ⟨t, -, -, t3, t4⟩ := C84_between (d := d) (w := w) (y := y) h hk (getElem?_val hc) le_rfl
      (by rw [← ek]; exact hlt'.le) dist
    have hl : log e < log (val es (k + 1)) := log_lt_log (ek ▸ grid_pos h hlt) (ek ▸ hlt')
    have ht : t = 0 := by
      have : t * (log (val es (k + 1)) - log e) = 0 := by linarith
      rcases mul_eq_zero.1 this with h | h
      · exact h
      · linarith
    rw [t4, ht]
    congr 2
    ext j; ring
  · obtain ⟨i, rfl⟩ : ∃ i, k = i + 1 := ⟨k - 1, by omega⟩
    have hlt' := grid_lt h (Nat.lt_succ_self i) hlt
    obtain ⟨t, -, -, t3, t4⟩ := C84_between (d := d) (w := w) (y := y) h (getElem?_val (show i < es.length by omega)) hk
      (by rw [← ek]; exact hlt'.le) le_rfl dist
    have hl : log (val es i) < log e := log_lt_log (grid_pos h (by omega)) (ek ▸ hlt')
    have ht : t = 1 := by
      have : (1 - t) * (log (val es i) - log e) = 0 := by linarith
      rcases mul_eq_zero.1 this with h | h
      · linarith
      · linarith
    rw [t4, ht]
    congr 2
    ext j; ring

example : ∃ r, exposureAt (emap (fun j : Fin 2 => (j : Nat)) (fun _ => 1) [1, 2, 4] fun k j => (k : ℝ) + j)
    (fun _ e => e) 4 = .ok r ∧ r = 20 := by
  refine ⟨_, C84_grid exGrid (k := 2) rfl _, ?_⟩
  simp [total, Fin.sum_univ_two]; norm_num

/-- The exposures of sources that are added are added, and those of a source that is scaled are
scaled, at every energy. -/
theorem C84_linear (h : Grid es) (e : ℝ) (a b : ℝ) (f g : D → ℝ → ℝ) :
    ∃ x z, exposureAt (emap d w es y) f e = .ok x ∧ exposureAt (emap d w es y) g e = .ok z ∧
      exposureAt (emap d w es y) (fun p e => a * f p e + b * g p e) e = .ok (a * x + b * z) := by
  obtain ⟨i, g1, g2, -⟩ := upperIndex_eq h e
  refine ⟨_, _, exposureAt_eq h g2 g1 f, exposureAt_eq h g2 g1 g, ?_⟩
  rw [exposureAt_eq h g2 g1]
  congr 1
  unfold total
  rw [Finset.mul_sum, Finset.mul_sum, ← Finset.sum_add_distrib]
  refine Finset.sum_congr rfl fun j _ => ?_
  ring

/-- Within the energies of the map the exposure is not negative. -/
theorem C84_nonneg_partial (h : Grid es) {e first last : ℝ} (hf : es.head? = some first) (hl : es.getLast? = some last)
    (h1 : first ≤ e) (h2 : e ≤ last) (hy : ∀ k j, 0 ≤ y k j) (hw : ∀ j, 0 ≤ w j) {dist : D → ℝ → ℝ}
    (hd : ∀ p, 0 ≤ dist p e) : ∃ r, exposureAt (emap d w es y) dist e = .ok r ∧ 0 ≤ r := by
  obtain ⟨i, g1, g2, g3, g4⟩ := upperIndex_eq h e
  rw [grid_head h] at hf
  rw [grid_last h] at hl
  cases hf
  cases hl
  have a1 := g3 h1
  have a2 := g4 h2
  obtain ⟨t, t1, t2, -, t4⟩ := C84_between (d := d) (w := w) (y := y) h
    (getElem?_val (show i < es.length by omega)) (getElem?_val g2) a1 a2 dist
  refine ⟨_, t4, Finset.sum_nonneg fun j _ => ?_⟩
  have := hy i j
  have := hy (i + 1) j
  have h3 : 0 ≤ 1 - t := by linarith
  exact mul_nonneg (mul_nonneg (add_nonneg (mul_nonneg h3 ‹_›) (mul_nonneg t1 ‹_›)) (hd _)) (hw j)

example : ∃ r, exposureAt (emap (fun j : Fin 2 => (j : Nat)) (fun _ => 1) [1, 2, 4] fun k j => (k : ℝ) + j)
    (fun _ e => 1) 3 = .ok r ∧ 0 ≤ r :=
  C84_nonneg_partial exGrid rfl rfl (by norm_num) (by norm_num) (fun k j => by positivity) (fun _ => by norm_num)
    (fun _ => by norm_num)

/-- Below the first energy the straight line is continued, and the exposure of a source can be
negative although exposure and source are positive. -/
theorem C84_negative_violates :
    ∃ (es : List ℝ) (y : Nat → Fin 1 → ℝ) (e : ℝ), Grid es ∧ (∀ k j, 0 < y k j) ∧ 0 < e ∧
      ∃ r, exposureAt (emap (fun _ => ()) (fun _ => 1) es y) (fun _ _ => 1) e = .ok r ∧ r < 0 := by
  have hu : upperIndex [(1 : ℝ), 2, 4] (1 / 2) = .ok (0 + 1) := by
    unfold upperIndex
    simp only [List.head?_cons, List.getLast?_cons_cons, List.getLast?_singleton]
    rw [if_pos (by norm_num)]
  refine ⟨[1, 2, 4], fun k _ => 2 * k + 1, 1 / 2, exGrid, fun k j => by positivity, by norm_num, _,
    exposureAt_eq exGrid (by simp) hu _, ?_⟩
  have hl : (0 : ℝ) < log 2 := log_pos (by norm_num)
  have e0 : val [(1 : ℝ), 2, 4] 0 = 1 := rfl
  have e1 : val [(1 : ℝ), 2, 4] (0 + 1) = 2 := rfl
  rw [e0, e1]
  simp only [total, Finset.univ_unique, Finset.sum_singleton, div_one, Nat.cast_zero]
  rw [one_div, log_inv, neg_div, div_self hl.ne']
  norm_num

/-- A map with a single energy is read outside its arrays, at every energy, as soon as it has a
pixel. -/
theorem C84_single_violates (dist : D → ℝ → ℝ) (e0 e : ℝ) (d : Fin (n + 1) → D) (w : Fin (n + 1) → ℝ)
    (y : Nat → Fin (n + 1) → ℝ) : exposureAt (emap d w [e0] y) dist e = .ub := by
  have hlen : (emap d w [e0] y).dirs.length = n + 1 := by simp [emap]
  have key : ∀ kk, pixelExposure (emap d w [e0] y) e kk 0 = .ub := by
    intro kk
    unfold pixelExposure
    by_cases hk : kk = 0
    · rw [if_pos hk]
    · rw [if_neg hk]
      have h2 : vget (emap d w [e0] y).energies kk = .ub := vget_ge _ _ (by simp [emap]; omega)
      rcases Nat.eq_or_lt_of_le (Nat.one_le_iff_ne_zero.2 hk) with h | h
      · subst h
        simp only [h2, Res.bind_ub]
        rw [vget_val (show 1 - 1 < (emap d w [e0] y).energies.length by simp [emap]), Res.bind_ok]
      · rw [vget_ge _ _ (show (emap d w [e0] y).energies.length ≤ kk - 1 by simp [emap]; omega), Res.bind_ub]
  have : ∃ kk, upperIndex [e0] e = .ok kk := by
    unfold upperIndex
    simp only [List.head?_cons, List.getLast?_singleton]
    by_cases h1 : e < e0
    · exact ⟨_, by rw [if_pos h1]⟩
    · by_cases h2 : e0 ≤ e
      · exact ⟨_, by rw [if_neg h1, if_pos h2]⟩
      · exact ⟨_, by rw [if_neg h1, if_neg h2]⟩
  obtain ⟨kk, hkk⟩ := this
  unfold exposureAt
  rw [show (emap d w [e0] y).energies = [e0] from rfl, hkk, Res.bind_ok, hlen, loop, key kk, Res.bind_ub,
    Res.bind_ub]

/-! ### The integration over the pixels of the source -/

/-- What the integration over the pixels of the source's own map gives at an energy of the exposure
map: the sum over its pixels within the radius of the exposure map, if the normalisation is one and
none of the sums is zero or less. -/
theorem C84_map_partial (h : Grid es) {k : Nat} {e : ℝ} (hk : es[k]? = some e) {src : SrcMap D}
    (hsrc : src.pixels = List.ofFn fun j => (d j, w j)) (hn : src.norm = 1) (x : Field D)
    (hpos : ∀ i a, es[i]? = some a →
      0 < total (Finset.univ.filter fun j => x.within (d j)) (fun j => x.plane (d j) i) (fun j => src.value (d j) a) w) :
    mapIntegrate src x es [e] = .ok [total (Finset.univ.filter fun j => x.within (d j))
      (fun j => x.plane (d j) k) (fun j => src.value (d j) e) w] := by
  obtain ⟨norm, pixels, map⟩ := src
  simp only at hsrc hn
  subst hsrc hn
  have hv : ∀ (p : D) (a : ℝ), (SrcMap.mk 1 (List.ofFn fun j => (d j, w j)) map).value p a = map p a := by
    intro p a; simp [SrcMap.value]
  simp only [hv] at hpos ⊢
  have hlt : k < es.length := (List.getElem?_eq_some_iff.1 hk).1
  have ek : val es k = e := by unfold val; rw [hk]; rfl
  have := mapExposure_grid h ⟨1, List.ofFn fun j => (d j, w j), map⟩ x hlt
    (fun i hi => by rw [gridExposure_eq]; exact hpos i _ (getElem?_val hi))
  rw [ek, gridExposure_eq] at this
  unfold mapIntegrate forEach forEach
  rw [this, Res.bind_ok, Res.bind_ok]

/-- If all sums are positive so is the exposure at every energy, also outside the energies of the
exposure map. -/
theorem C84_map_positive (h : Grid es) {src : SrcMap D} (hsrc : src.pixels = List.ofFn fun j => (d j, w j))
    (x : Field D)
    (hpos : ∀ i a, es[i]? = some a →
      0 < total (Finset.univ.filter fun j => x.within (d j)) (fun j => x.plane (d j) i) (fun j => src.map (d j) a) w)
    {e : ℝ} (he : 0 < e) : ∃ r, mapIntegrate src x es [e] = .ok [r] ∧ 0 < r := by
  obtain ⟨norm, pixels, map⟩ := src
  simp only at hsrc
  subst hsrc
  obtain ⟨k, h1, h2, -⟩ := lowerIndex_eq h e
  have hk : k < es.length := by omega
  have p1 := hpos k _ (getElem?_val hk)
  have p2 := hpos (k + 1) _ (getElem?_val h2)
  rw [← gridExposure_eq norm map x] at p1 p2
  unfold mapIntegrate forEach forEach mapExposureAt
  rw [h1]
  simp only [vget_val hk, vget_val h2, val_gridExposures _ x es h2, val_gridExposures _ x es hk, Res.bind_ok]
  rw [powerLaw_pos (grid_pos h hk) (grid_lt h (by omega) h2) p1 p2, Res.bind_ok]
  exact ⟨_, rfl, mul_pos p1 (rpow_pos_of_pos (div_pos he (grid_pos h hk)) _)⟩

example : ∃ r, mapIntegrate ⟨7, List.ofFn fun j : Fin 2 => ((j : Nat), 1), fun _ _ => 1⟩
    ⟨fun p => p == 1, fun p k => (k : ℝ) + p⟩ [1, 2, 4] [1 / 9] = .ok [r] ∧ 0 < r := by
  refine C84_map_positive exGrid (d := fun j : Fin 2 => (j : Nat)) (w := fun _ => 1) rfl _ (fun i a _ => ?_) (by norm_num)
  refine Finset.sum_pos (fun j hj => ?_) ⟨1, by simp⟩
  simp only [Finset.mem_filter, beq_iff_eq] at hj
  simp only [hj.2]
  positivity

/-- The normalisation of the source is not used in that integration. -/
theorem norm_unused (pixels : List (D × ℝ)) (map : D → ℝ → ℝ) (a b : ℝ) (x : Field D) (es energies : List ℝ) :
    mapIntegrate ⟨a, pixels, map⟩ x es energies = mapIntegrate ⟨b, pixels, map⟩ x es energies := rfl

/-- One sum that is zero next to one that is positive makes the whole computation fail. -/
theorem C84_zero_violates : ∃ (src : SrcMap Unit) (x : Field Unit) (es : List ℝ), Grid es ∧ src.norm = 1 ∧
    (∀ p e, 0 ≤ src.map p e) ∧ (∀ p k, 0 ≤ x.plane p k) ∧ ∀ e, mapIntegrate src x es [e] = .throws := by
  have hg : Grid [(1 : ℝ), 2] := by
    refine ⟨by norm_num, ?_, ?_⟩
    · intro e he
      simp only [List.mem_cons, List.not_mem_nil, or_false] at he
      rcases he with rfl | rfl <;> norm_num
    · simp
  refine ⟨⟨1, [((), 1)], fun _ _ => 1⟩, ⟨fun _ => true, fun _ k => k⟩, [1, 2], hg, rfl,
    fun _ _ => zero_le_one, fun _ k => Nat.cast_nonneg k, fun e => ?_⟩
  obtain ⟨k, h1, h2, -⟩ := lowerIndex_eq hg e
  have hk : k = 0 := by simp at h2; exact h2
  subst hk
  unfold mapIntegrate forEach mapExposureAt
  rw [h1]
  simp [gridExposures, gridExposure, vget, powerLaw]

/-- A map with a single energy is read outside its arrays, here too. -/
theorem C84_map_single_violates (src : SrcMap D) (x : Field D) (e0 e : ℝ) :
    mapIntegrate src x [e0] [e] = .ub := by
  unfold mapIntegrate forEach
  have : mapExposureAt [e0] (gridExposures src x [e0]) e = .ub := by
    unfold mapExposureAt lowerIndex
    simp only [List.head?_cons, List.getLast?_singleton]
    by_cases h1 : e ≤ e0
    · rw [if_pos h1]
      simp [vget]
    · rw [if_neg h1, if_pos (not_le.1 h1).le]
      simp
  rw [this, Res.bind_ub]

/-! ### The choice between the two -/

/-- The two ways of integration agree at the energies of the exposure map, if the source map has the
pixels of the exposure map, its normalisation is one and all sums are positive. -/
theorem C84_agree_partial (h : Grid es) {src : SrcMap D} (hsrc : src.pixels = List.ofFn fun j => (d j, w j))
    (hn : src.norm = 1) {x : Field D} (hx : ∀ j, x.within (d j) = true) (hy : ∀ k j, x.plane (d j) k = y k j)
    (hpos : ∀ i a, es[i]? = some a → 0 < total Finset.univ (y i) (fun j => src.value (d j) a) w)
    {e : ℝ} (he : e ∈ es) :
    ∃ r, computeExposure (some (emap d w es y, x)) true (.map src) [e] = .ok [r] ∧
      computeExposure (some (emap d w es y, x)) false (.map src) [e] = .ok [r] := by
  obtain ⟨k, hk⟩ := List.getElem?_of_mem he
  have hfilter : (Finset.univ.filter fun j => x.within (d j) = true) = Finset.univ := by
    ext j; simp [hx]
  have hm := C84_map_partial h hk hsrc hn x (fun i a hi => by
    rw [hfilter]; simp only [hy]; exact hpos i a hi)
  rw [hfilter] at hm
  simp only [hy] at hm
  refine ⟨_, hm, ?_⟩
  have := C84_grid (d := d) (w := w) (y := y) h hk src.value
  unfold computeExposure integrate forEach forEach
  simp only [Spatial.value, Bool.false_eq_true, if_false]
  rw [this, Res.bind_ok, Res.bind_ok]

example : ∃ r, computeExposure (some (emap (fun j : Fin 2 => (j : Nat)) (fun _ => 1) [1, 2, 4] fun k j => (k : ℝ) + (j : Nat) + 1,
      ⟨fun _ => true, fun p k => (k : ℝ) + p + 1⟩)) true
        (.map ⟨1, List.ofFn fun j : Fin 2 => ((j : Nat), 1), fun _ _ => 1⟩) [2] = .ok [r] ∧
    computeExposure (some (emap (fun j : Fin 2 => (j : Nat)) (fun _ => 1) [1, 2, 4] fun k j => (k : ℝ) + (j : Nat) + 1,
      ⟨fun _ => true, fun p k => (k : ℝ) + p + 1⟩)) false
        (.map ⟨1, List.ofFn fun j : Fin 2 => ((j : Nat), 1), fun _ _ => 1⟩) [2] = .ok [r] := by
  refine C84_agree_partial exGrid rfl rfl (fun _ => rfl) (fun k j => rfl) (fun i a _ => ?_) (by simp)
  refine Finset.sum_pos (fun j _ => ?_) ⟨0, Finset.mem_univ _⟩
  simp only [SrcMap.value]
  positivity

/-- A source with a normalisation other than one gets another exposure when it is integrated over its
own pixels: here a quarter. -/
theorem C84_norm_violates : ∃ (m : EMap Unit) (x : Field Unit) (src : SrcMap Unit) (e r : ℝ), 0 < r ∧
    computeExposure (some (m, x)) true (.map src) [e] = .ok [r] ∧
      computeExposure (some (m, x)) false (.map src) [e] = .ok [4 * r] := by
  have hp : ∀ norm, (SrcMap.mk norm [((), (1 : ℝ))] (fun _ _ => (1 : ℝ))).pixels =
      List.ofFn fun j : Fin 1 => ((), (1 : ℝ)) := fun norm => by simp
  have h := C84_map_partial (d := fun _ : Fin 1 => ()) (w := fun _ => 1) exGrid (k := 0) (e := 1) rfl (hp 1) rfl
    ⟨fun _ => true, fun _ _ => 1⟩ (fun i a _ => by simp [total, SrcMap.value])
  have h' := C84_grid (d := fun _ : Fin 1 => ()) (w := fun _ => 1) (y := fun _ _ => 1) exGrid (k := 0) (e := 1) rfl
    (SrcMap.value ⟨4, [((), (1 : ℝ))], fun _ _ => 1⟩)
  refine ⟨emap (fun _ : Fin 1 => ()) (fun _ => 1) [1, 2, 4] (fun _ _ => 1), ⟨fun _ => true, fun _ _ => 1⟩,
    ⟨4, [((), 1)], fun _ _ => 1⟩, 1, 1, one_pos, ?_, ?_⟩
  · unfold computeExposure
    simp only [if_true]
    rw [norm_unused _ _ 4 1, show (emap (fun _ : Fin 1 => ()) (fun _ => 1) [1, 2, 4] (fun _ _ => 1)).energies
      = [1, 2, 4] from rfl, h]
    simp [total, SrcMap.value]
  · unfold computeExposure integrate forEach forEach
    simp only [Spatial.value, Bool.false_eq_true, if_false]
    rw [h', Res.bind_ok, Res.bind_ok]
    simp [total, SrcMap.value]

/-- Without an exposure map a diffuse source is refused; a source that is not a map is integrated over
the exposure map, whether or not the integration over its own map is asked for. -/
theorem C84_choice (h : Grid es) (mapBased : Bool) (f : D → ℝ → ℝ) (x : Field D) {e : ℝ} {k : Nat}
    (hk : es[k]? = some e) :
    computeExposure (D := D) none mapBased (.func f) [e] = .throws ∧
      computeExposure (some (emap d w es y, x)) mapBased (.func f) [e] =
        .ok [total Finset.univ (y k) (fun j => f (d j) e) w] := by
  refine ⟨rfl, ?_⟩
  have := C84_grid (d := d) (w := w) (y := y) h hk f
  unfold computeExposure integrate forEach forEach
  cases mapBased <;> simp [Spatial.value, this]

example : computeExposure (some (emap (fun j : Fin 2 => (j : Nat)) (fun _ => 1) [1, 2, 4] fun k j => (k : ℝ) + (j : Nat),
    ⟨fun _ => true, fun _ _ => 0⟩)) true (.func fun _ _ => 1) [4] =
      .ok [total Finset.univ (fun j : Fin 2 => ((2 : Nat) : ℝ) + (j : Nat)) (fun _ => 1) fun _ => 1] :=
  (C84_choice exGrid true _ _ (k := 2) rfl).2

end Verif.ExpMap
