import Verif.MeanPsf.Lemmas
import Mathlib.Topology.Order.IntermediateValue
set_option linter.unusedSimpArgs false
set_option linter.unusedVariables false
set_option linter.unusedSectionVars false
/-
C58: the integral of the mean point-spread function over a cone.
-/
namespace Verif.MeanPsf
open Real Spec Verif.Vec

variable {seps energies psf : List ℝ}

/-- The object holds the normalised table and its partial integrals. -/
structure Built (seps energies psf : List ℝ) (m : Obj) : Prop where
  angs : m.seps = seps
  engs : m.energies = energies
  len : m.psf.length = energies.length * seps.length
  rows : ∀ k < energies.length, ∀ j < seps.length,
    row seps m.psf k j = row seps psf k j / divisor seps (row seps psf k)
  parts : m.parts = (List.range energies.length).map fun k => (List.range seps.length).map fun j =>
    cum seps (row seps psf k) j / divisor seps (row seps psf k)

theorem built (h : Grid seps) (hl : psf.length = energies.length * seps.length) :
    ∃ m, build seps energies psf = .ok m ∧ Built seps energies psf m := by
  obtain ⟨m, b1, b2, b3, b4, b5, b6⟩ := build_ok h hl
  exact ⟨m, b1, b2, b3, by rw [b4, hl], b5, b6⟩

variable {m : Obj}

theorem cumAt_ok (h : Grid seps) (hb : Built seps energies psf m) {k j : Nat} (hk : k < energies.length)
    (hj : j + 1 < seps.length) (a : ℝ) :
    cumAt m k j (a * π / 180) = .ok ((cum seps (row seps psf k) j +
      lineIntegral (rad (el seps j)) (rad (el seps (j + 1))) (ring seps (row seps psf k) j)
      (ring seps (row seps psf k) (j + 1)) (rad a)) / divisor seps (row seps psf k)) := by
  have e1 : k * seps.length + j < m.psf.length := by rw [hb.len]; exact idx_lt (by omega) hk
  have e2 : k * seps.length + j + 1 < m.psf.length := by
    rw [hb.len, Nat.add_assoc]; exact idx_lt hj hk
  have r1 : el m.psf (k * seps.length + j) = el psf (k * seps.length + j) / divisor seps (row seps psf k) :=
    hb.rows k hk j (by omega)
  have r2 : el m.psf (k * seps.length + j + 1) =
      el psf (k * seps.length + j + 1) / divisor seps (row seps psf k) := hb.rows k hk (j + 1) hj
  rw [cumAt]
  simp only [hb.angs]
  rw [vget_el (show j < seps.length by omega), Res.bind_ok, vget_el hj, Res.bind_ok, vat_el e1, Res.bind_ok,
    vat_el e2, Res.bind_ok, r1, r2]
  have hp : vat m.parts k = .ok ((List.range seps.length).map fun j =>
      cum seps (row seps psf k) j / divisor seps (row seps psf k)) := by
    rw [vat, hb.parts, List.getElem?_map, List.getElem?_range hk]; rfl
  rw [hp, Res.bind_ok, vat_el (by simp; omega), Res.bind_ok, el_val, val_map_range _ (by omega)]
  have q1 : el psf (k * seps.length + j) = row seps psf k j := rfl
  have q2 : el psf (k * seps.length + j + 1) = row seps psf k (j + 1) := rfl
  congr 1
  rw [ringY_div, ringY_div, line_div, ← add_div]
  rfl

/-- What row `k` gives for a cone of radius `a`. -/
noncomputable def frac (seps : List ℝ) (p : Nat → ℝ) (j : Nat) (a : ℝ) : ℝ :=
  (cum seps p j + lineIntegral (rad (el seps j)) (rad (el seps (j + 1))) (ring seps p j)
    (ring seps p (j + 1)) (rad a)) / divisor seps p

theorem el_le_of_lt (he : energies.Pairwise (· < ·)) {i j : Nat} (hij : i ≤ j) (hj : j < energies.length) :
    el energies i ≤ el energies j := by
  rcases Nat.eq_or_lt_of_le hij with e | e
  · rw [e]
  · exact (pairwise_val.1 he i j e hj).le

/-- Between two energies of the table. -/
theorem integral_mid (h : Grid seps) (he : energies.Pairwise (· < ·)) (hb : Built seps energies psf m) {k j : Nat}
    (hk : k + 1 < energies.length) (hj : j + 1 < seps.length) {a e : ℝ} (h1 : el seps j ≤ a) (h2 : a < el seps (j + 1))
    (e1 : el energies k ≤ e) (e2 : e < el energies (k + 1)) :
    integral m a e = .ok (between (el energies k) (el energies (k + 1)) (frac seps (row seps psf k) j a)
      (frac seps (row seps psf (k + 1)) j a) e) := by
  have hu : upperBound energies e = k + 1 :=
    upperBound_eq (by omega) (fun i hi => (el_le_of_lt he (by omega) (by omega)).trans e1) fun _ => e2
  have hs : upperBound seps a = j + 1 :=
    upperBound_eq (by omega) (fun i hi => (grid_le h (by omega) (by omega)).trans h1) fun _ => h2
  have hne : energies ≠ [] := by rintro rfl; simp at hk
  have f0 : el seps 0 ≤ a := (grid_le h (Nat.zero_le j) (by omega)).trans h1
  have f1 : a < el seps (seps.length - 1) := h2.trans_le (grid_le h (by omega) (by omega))
  rw [integral]
  simp only [hb.angs, hb.engs, hu]
  rw [if_neg (by simp), vget_el (by omega), Res.bind_ok, if_neg (not_lt.2 f0), vget_el (by omega), Res.bind_ok,
    if_neg (not_le.2 f1), if_neg hne, integralIn]
  simp only [hb.angs, hb.engs, hs, Nat.add_sub_cancel]
  rw [cumAt_ok h hb (by omega) hj, Res.bind_ok, if_neg (by omega), cumAt_ok h hb hk hj, Res.bind_ok,
    vat_el (by omega), Res.bind_ok, vat_el hk, Res.bind_ok]
  congr 1
  unfold between frac
  ring

/-- From the last energy of the table on. -/
theorem integral_top (h : Grid seps) (he : energies.Pairwise (· < ·)) (hb : Built seps energies psf m) {j : Nat}
    (hne : energies ≠ []) (hj : j + 1 < seps.length) {a e : ℝ} (h1 : el seps j ≤ a) (h2 : a < el seps (j + 1))
    (e1 : el energies (energies.length - 1) ≤ e) :
    integral m a e = .ok (frac seps (row seps psf (energies.length - 1)) j a) := by
  have hn : 0 < energies.length := List.length_pos_iff.2 hne
  have hu : upperBound energies e = energies.length :=
    upperBound_eq le_rfl (fun i hi => (el_le_of_lt he (by omega) (by omega)).trans e1) fun h => absurd h (lt_irrefl _)
  have hs : upperBound seps a = j + 1 :=
    upperBound_eq (by omega) (fun i hi => (grid_le h (by omega) (by omega)).trans h1) fun _ => h2
  have f0 : el seps 0 ≤ a := (grid_le h (Nat.zero_le j) (by omega)).trans h1
  have f1 : a < el seps (seps.length - 1) := h2.trans_le (grid_le h (by omega) (by omega))
  rw [integral]
  simp only [hb.angs, hb.engs, hu]
  rw [if_neg (by rintro ⟨g, _⟩; omega), vget_el (by omega), Res.bind_ok, if_neg (not_lt.2 f0), vget_el (by omega),
    Res.bind_ok, if_neg (not_le.2 f1), if_neg hne, integralIn]
  simp only [hb.angs, hb.engs, hs, Nat.add_sub_cancel]
  rw [cumAt_ok h hb (by omega) hj, Res.bind_ok, if_pos trivial]
  rfl

/-- Outside the grid of angles. -/
theorem integral_out (h : Grid seps) (hb : Built seps energies psf m) (hne : energies ≠ []) {a e : ℝ}
    (e1 : el energies 0 ≤ e) :
    (a < el seps 0 → integral m a e = .ok 0) ∧ (el seps (seps.length - 1) ≤ a → integral m a e = .ok 1) := by
  have h2 := h.two
  have hn : 0 < energies.length := List.length_pos_iff.2 hne
  have hu : ¬ (upperBound energies e = 0 ∧ energies ≠ []) := by
    rintro ⟨g, _⟩
    unfold upperBound at g
    have := List.findIdx_getElem (xs := energies) (p := fun b => @decide (e < b) (Classical.propDecidable _))
      (w := by rw [g]; exact hn)
    rw [el_val, val_lt hn] at e1
    simp only [g] at this
    exact absurd e1 (not_le.2 (of_decide_eq_true this))
  constructor
  · intro ha
    rw [integral]
    simp only [hb.angs, hb.engs]
    rw [if_neg hu, vget_el (by omega), Res.bind_ok, if_pos ha]
  · intro ha
    have : ¬ a < el seps 0 := not_lt.2 ((grid_le h (Nat.zero_le _) (by omega)).trans ha)
    rw [integral]
    simp only [hb.angs, hb.engs]
    rw [if_neg hu, vget_el (by omega), Res.bind_ok, if_neg this, vget_el (by omega), Res.bind_ok, if_pos ha]

theorem frac_area (h : Grid seps) {p : Nat → ℝ} {g : ℝ → ℝ} (hg : Polygon seps (ring seps p) g)
    (hw : whole seps g ≠ 0) {j : Nat} (hj : j + 1 < seps.length) {a : ℝ} (h1 : el seps j ≤ a) (h2 : a ≤ el seps (j + 1)) :
    frac seps p j a = area seps g a / whole seps g := by
  rw [frac, ← area_eq h hg hj h1 h2, divisor, ← whole_eq h hg, if_neg hw]

/-- C58: at an energy of the table the integral over a cone is the area under the polygon
through the table's values of `2πψ sin θ` up to the radius, divided by the whole area; between
two energies it is interpolated linearly; above the last energy it is the one of the last. -/
theorem C58_integral (seps energies psf : List ℝ) (h : Grid seps) (he : energies.Pairwise (· < ·))
    (hl : psf.length = energies.length * seps.length) (g : Nat → ℝ → ℝ)
    (hg : ∀ k < energies.length, Polygon seps (ring seps fun j => el psf (k * seps.length + j)) (g k))
    (hw : ∀ k < energies.length, whole seps (g k) ≠ 0) :
    ∃ m, build seps energies psf = .ok m ∧ ∀ a, el seps 0 ≤ a → a < el seps (seps.length - 1) →
      (∀ k, k + 1 < energies.length → ∀ e, el energies k ≤ e → e < el energies (k + 1) →
        integral m a e = .ok (between (el energies k) (el energies (k + 1))
          (area seps (g k) a / whole seps (g k)) (area seps (g (k + 1)) a / whole seps (g (k + 1))) e)) ∧
      (energies ≠ [] → ∀ e, el energies (energies.length - 1) ≤ e → integral m a e =
        .ok (area seps (g (energies.length - 1)) a / whole seps (g (energies.length - 1)))) := by
  obtain ⟨m, b1, hb⟩ := built h hl
  refine ⟨m, b1, fun a ha1 ha2 => ?_⟩
  obtain ⟨j, hj, j1, j2, _⟩ := interval_of h ha1 ha2
  refine ⟨fun k hk e e1 e2 => ?_, fun hne e e1 => ?_⟩
  · rw [integral_mid h he hb hk hj j1 j2 e1 e2,
      frac_area h (p := row seps psf k) (hg k (by omega)) (hw k (by omega)) hj j1 j2.le,
      frac_area h (p := row seps psf (k + 1)) (hg (k + 1) hk) (hw (k + 1) hk) hj j1 j2.le]
  · have hn : 0 < energies.length := List.length_pos_iff.2 hne
    rw [integral_top h he hb hne hj j1 j2 e1, frac_area h (p := row seps psf (energies.length - 1)) (hg _ (by omega)) (hw _ (by omega)) hj j1 j2.le]

/-- C58: the table itself is normalised by the same constants: the polygon through its values
has area one. -/
theorem C58_normalised (seps energies psf : List ℝ) (h : Grid seps)
    (hl : psf.length = energies.length * seps.length) :
    ∃ m, build seps energies psf = .ok m ∧ ∀ k < energies.length, ∀ g g',
      Polygon seps (ring seps fun j => el psf (k * seps.length + j)) g →
      Polygon seps (ring seps fun j => el m.psf (k * seps.length + j)) g' → whole seps g ≠ 0 →
      whole seps g' = 1 ∧ ∀ t, rad (el seps 0) ≤ t → t ≤ rad (el seps (seps.length - 1)) →
        g' t = g t / whole seps g := by
  obtain ⟨m, b1, hb⟩ := built h hl
  refine ⟨m, b1, fun k hk g g' hg hg' hw => ?_⟩
  have h2 := h.two
  have hd : divisor seps (row seps psf k) = whole seps g := by
    have e : whole seps g = cum seps (row seps psf k) (seps.length - 1) := whole_eq h hg
    rw [divisor, ← e, if_neg hw]
  have hr : ∀ j < seps.length, ring seps (row seps m.psf k) j = ring seps (row seps psf k) j / whole seps g := by
    intro j hj
    rw [ring, hb.rows k hk j hj, hd, ring]; ring
  have key : ∀ t, rad (el seps 0) ≤ t → t ≤ rad (el seps (seps.length - 1)) → g' t = g t / whole seps g := by
    intro t t1 t2
    have hloc : ∃ j, j + 1 < seps.length ∧ t ∈ Set.Icc (rad (el seps j)) (rad (el seps (j + 1))) := by
      have key : ∀ i, i + 1 < seps.length → t ≤ rad (el seps (i + 1)) →
          ∃ j, j + 1 < seps.length ∧ t ∈ Set.Icc (rad (el seps j)) (rad (el seps (j + 1))) := by
        intro i
        induction i with
        | zero => intro hi ht; exact ⟨0, hi, t1, ht⟩
        | succ i ih =>
          intro hi ht
          by_cases hc : t ≤ rad (el seps (i + 1))
          · exact ih (by omega) hc
          · exact ⟨i + 1, hi, (not_le.1 hc).le, ht⟩
      have e : seps.length - 2 + 1 = seps.length - 1 := by omega
      exact key (seps.length - 2) (by omega) (by rw [e]; exact t2)
    obtain ⟨j, hj, ht⟩ := hloc
    rw [hg j hj t ht, hg' j hj t ht]
    have a1 := hr j (by omega)
    have a2 := hr (j + 1) hj
    unfold row at a1 a2
    rw [a1, a2]
    ring
  refine ⟨?_, key⟩
  have : whole seps g' = ∫ t in rad (el seps 0)..rad (el seps (seps.length - 1)), g t / whole seps g := by
    rw [whole, area]
    apply intervalIntegral.integral_congr
    intro t ht
    rw [Set.uIcc_of_le (rad_le (grid_le h (Nat.zero_le _) (by omega)))] at ht
    exact key t ht.1 ht.2
  rw [this, intervalIntegral.integral_div]
  exact div_self hw

/-! ### Monotone, between zero and one, and continuous -/

/-- The radius moved into the grid. -/
noncomputable def clamp (seps : List ℝ) (a : ℝ) : ℝ := max (el seps 0) (min a (el seps (seps.length - 1)))

theorem poly_nonneg (h : Grid seps) {p : Nat → ℝ} (hp : ∀ j < seps.length, 0 ≤ p j) {g : ℝ → ℝ}
    (hg : Polygon seps (ring seps p) g) {t : ℝ} (t1 : rad (el seps 0) ≤ t)
    (t2 : t ≤ rad (el seps (seps.length - 1))) : 0 ≤ g t := by
  have h2 := h.two
  have hloc : ∃ j, j + 1 < seps.length ∧ t ∈ Set.Icc (rad (el seps j)) (rad (el seps (j + 1))) := by
    have key : ∀ i, i + 1 < seps.length → t ≤ rad (el seps (i + 1)) →
        ∃ j, j + 1 < seps.length ∧ t ∈ Set.Icc (rad (el seps j)) (rad (el seps (j + 1))) := by
      intro i
      induction i with
      | zero => intro hi ht; exact ⟨0, hi, t1, ht⟩
      | succ i ih =>
        intro hi ht
        by_cases hc : t ≤ rad (el seps (i + 1))
        · exact ih (by omega) hc
        · exact ⟨i + 1, hi, (not_le.1 hc).le, ht⟩
    have e : seps.length - 2 + 1 = seps.length - 1 := by omega
    exact key (seps.length - 2) (by omega) (by rw [e]; exact t2)
  obtain ⟨j, hj, ht⟩ := hloc
  have y0 : ∀ i < seps.length, 0 ≤ ring seps p i := by
    intro i hi
    have := hp i hi
    have := sin_nonneg h hi
    have := pi_pos
    unfold ring; positivity
  rw [hg j hj t ht]
  have d : 0 < rad (el seps (j + 1)) - rad (el seps j) := sub_pos.2 (rad_lt (grid_lt h (Nat.lt_succ_self j) hj))
  set w := (t - rad (el seps j)) / (rad (el seps (j + 1)) - rad (el seps j))
  have w0 : 0 ≤ w := div_nonneg (sub_nonneg.2 ht.1) d.le
  have w1 : w ≤ 1 := (div_le_one d).2 (by linarith [ht.2])
  have := y0 j (by omega)
  have := y0 (j + 1) hj
  nlinarith [mul_nonneg (sub_nonneg.2 w1) this]

/-- Properties of the area as a function of the radius. -/
theorem area_props (h : Grid seps) {p : Nat → ℝ} (hp : ∀ j < seps.length, 0 ≤ p j) {g : ℝ → ℝ}
    (hg : Polygon seps (ring seps p) g) (hw : whole seps g ≠ 0) :
    Continuous (fun a => area seps g (clamp seps a) / whole seps g) ∧
      Monotone (fun a => area seps g (clamp seps a) / whole seps g) ∧
      (∀ a, 0 ≤ area seps g (clamp seps a) / whole seps g ∧ area seps g (clamp seps a) / whole seps g ≤ 1) ∧
      (∀ a, a ≤ el seps 0 → area seps g (clamp seps a) / whole seps g = 0) ∧
      (∀ a, el seps (seps.length - 1) ≤ a → area seps g (clamp seps a) / whole seps g = 1) := by
  have h2 := h.two
  have hle : el seps 0 ≤ el seps (seps.length - 1) := grid_le h (Nat.zero_le _) (by omega)
  have hint := (node_area h hg (j := seps.length - 1) (by omega)).1
  have c0 : ∀ a, el seps 0 ≤ clamp seps a := fun a => le_max_left _ _
  have c1 : ∀ a, clamp seps a ≤ el seps (seps.length - 1) := fun a => max_le hle (min_le_right _ _)
  have hcm : Monotone (clamp seps) := fun a b hab => max_le_max le_rfl (min_le_min hab le_rfl)
  have sub : ∀ x y, el seps 0 ≤ x → x ≤ y → y ≤ el seps (seps.length - 1) → area seps g x ≤ area seps g y := by
    intro x y hx hxy hy
    have u1 : Set.uIcc (rad (el seps 0)) (rad x) ⊆ Set.uIcc (rad (el seps 0)) (rad (el seps (seps.length - 1))) := by
      rw [Set.uIcc_of_le (rad_le hx), Set.uIcc_of_le (rad_le hle)]
      exact Set.Icc_subset_Icc le_rfl (rad_le (hxy.trans hy))
    have u2 : Set.uIcc (rad x) (rad y) ⊆ Set.uIcc (rad (el seps 0)) (rad (el seps (seps.length - 1))) := by
      rw [Set.uIcc_of_le (rad_le hxy), Set.uIcc_of_le (rad_le hle)]
      exact Set.Icc_subset_Icc (rad_le hx) (rad_le hy)
    have := intervalIntegral.integral_add_adjacent_intervals (hint.mono_set u1) (hint.mono_set u2)
    rw [area, area, ← this]
    have : 0 ≤ ∫ t in rad x..rad y, g t := intervalIntegral.integral_nonneg (rad_le hxy) fun t ht =>
      poly_nonneg h hp hg ((rad_le hx).trans ht.1) (ht.2.trans (rad_le hy))
    linarith
  have a0 : area seps g (el seps 0) = 0 := by simp [area]
  have hpos : 0 < whole seps g := lt_of_le_of_ne (by rw [whole, ← a0]; exact sub _ _ le_rfl hle le_rfl) (Ne.symm hw)
  refine ⟨?_, ?_, ?_, ?_, ?_⟩
  · have hcont : ContinuousOn (fun x => ∫ t in rad (el seps 0)..x, g t)
        (Set.uIcc (rad (el seps 0)) (rad (el seps (seps.length - 1)))) :=
      intervalIntegral.continuousOn_primitive_interval' hint Set.left_mem_uIcc
    have hcl : Continuous fun a => rad (clamp seps a) := by
      unfold rad clamp
      exact ((continuous_const.max (continuous_id.min continuous_const)).mul continuous_const).div_const _
    have : Continuous fun a => area seps g (clamp seps a) := by
      refine hcont.comp_continuous hcl fun a => ?_
      rw [Set.uIcc_of_le (rad_le hle)]
      exact ⟨rad_le (c0 a), rad_le (c1 a)⟩
    exact this.div_const _
  · intro a b hab
    exact div_le_div_of_nonneg_right (sub _ _ (c0 a) (hcm hab) (c1 b)) hpos.le
  · intro a
    refine ⟨div_nonneg ?_ hpos.le, (div_le_one hpos).2 (sub _ _ (c0 a) (c1 a) le_rfl)⟩
    rw [← a0]; exact sub _ _ le_rfl (c0 a) (c1 a)
  · intro a ha
    have : clamp seps a = el seps 0 := max_eq_left ((min_le_left _ _).trans ha)
    rw [this, a0, zero_div]
  · intro a ha
    have : clamp seps a = el seps (seps.length - 1) := by rw [clamp, min_eq_right ha, max_eq_right hle]
    rw [this]; exact div_self hw

/-- The polygon exists. -/
theorem polygon_exists (h : Grid seps) (y : Nat → ℝ) : ∃ g, Polygon seps y g := by
  classical
  refine ⟨fun t => if hx : ∃ j, j + 1 < seps.length ∧ rad (el seps j) ≤ t ∧ t ≤ rad (el seps (j + 1)) then
    y (Nat.find hx) + (y (Nat.find hx + 1) - y (Nat.find hx)) * ((t - rad (el seps (Nat.find hx))) /
      (rad (el seps (Nat.find hx + 1)) - rad (el seps (Nat.find hx)))) else 0, ?_⟩
  intro j hj t ht
  have hx : ∃ j, j + 1 < seps.length ∧ rad (el seps j) ≤ t ∧ t ≤ rad (el seps (j + 1)) := ⟨j, hj, ht.1, ht.2⟩
  simp only [dif_pos hx]
  obtain ⟨f1, f2, f3⟩ := Nat.find_spec hx
  have hle : Nat.find hx ≤ j := Nat.find_le ⟨hj, ht.1, ht.2⟩
  generalize Nat.find hx = i at f1 f2 f3 hle ⊢
  rcases Nat.eq_or_lt_of_le hle with e | e
  · rw [e]
  · -- the intervals meet in one point
    have g1 : rad (el seps (i + 1)) ≤ rad (el seps j) := rad_le (grid_le h e (by omega))
    have g2 : t = rad (el seps j) := le_antisymm (f3.trans g1) ht.1
    have g3 : rad (el seps (i + 1)) = rad (el seps j) := le_antisymm g1 (g2 ▸ f3)
    have g4 : i + 1 = j := by
      by_contra hne
      exact absurd g3 (ne_of_lt (rad_lt (grid_lt h (by omega) (by omega))))
    have d : rad (el seps j) - rad (el seps i) ≠ 0 :=
      sub_ne_zero.2 (ne_of_gt (rad_lt (grid_lt h e (by omega))))
    rw [g4, g2, div_self d]; simp

/-- C58: for a density that is nowhere negative and not zero at any energy, and an energy
from the first one of the table on: the integral over a cone is defined for all radii, is a
continuous non-decreasing function of the radius, from zero to one, and every
containment is reached in the range of the grid. -/
theorem C58_monotone (seps energies psf : List ℝ) (h : Grid seps) (he : energies.Pairwise (· < ·))
    (hne : energies ≠ []) (hl : psf.length = energies.length * seps.length) (hp : ∀ x ∈ psf, 0 ≤ x)
    (hw : ∀ k < energies.length, ∀ g, Polygon seps (ring seps fun j => el psf (k * seps.length + j)) g →
      whole seps g ≠ 0) :
    ∃ m, build seps energies psf = .ok m ∧ ∀ e, el energies 0 ≤ e → ∃ F : ℝ → ℝ,
      (∀ a, integral m a e = .ok (F a)) ∧ Continuous F ∧ Monotone F ∧ (∀ a, 0 ≤ F a ∧ F a ≤ 1) ∧
      ∀ c, 0 ≤ c → c ≤ 1 → ∃ a, el seps 0 ≤ a ∧ a ≤ el seps (seps.length - 1) ∧ F a = c := by
  have h2 := h.two
  have hn : 0 < energies.length := List.length_pos_iff.2 hne
  choose g hg using fun k => polygon_exists h (ring seps fun j => el psf (k * seps.length + j))
  obtain ⟨m, b1, hb⟩ := built h hl
  obtain ⟨m', b1', hi⟩ := C58_integral seps energies psf h he hl g (fun k _ => hg k) (fun k hk => hw k hk _ (hg k))
  obtain rfl : m = m' := by rw [b1] at b1'; exact Res.ok.inj b1'
  refine ⟨m, b1, fun e e0 => ?_⟩
  have hrow : ∀ k < energies.length, ∀ j < seps.length, 0 ≤ el psf (k * seps.length + j) := by
    intro k hk j hj
    exact hp _ (val_mem (by rw [hl]; exact idx_lt hj hk))
  set A : Nat → ℝ → ℝ := fun k a => area seps (g k) (clamp seps a) / whole seps (g k)
  have hA : ∀ k < energies.length, Continuous (A k) ∧ Monotone (A k) ∧ (∀ a, 0 ≤ A k a ∧ A k a ≤ 1) ∧
      (∀ a, a ≤ el seps 0 → A k a = 0) ∧ (∀ a, el seps (seps.length - 1) ≤ a → A k a = 1) :=
    fun k hk => area_props h (hrow k hk) (hg k) (hw k hk _ (hg k))
  have hcl : ∀ a, el seps 0 ≤ a → a < el seps (seps.length - 1) → clamp seps a = a := by
    intro a a1 a2
    rw [clamp, min_eq_left a2.le, max_eq_right a1]
  -- it is enough to find the function for radii in the grid
  have fin : ∀ F : ℝ → ℝ, (∀ a, el seps 0 ≤ a → a < el seps (seps.length - 1) → integral m a e = .ok (F a)) →
      Continuous F → Monotone F → (∀ a, 0 ≤ F a ∧ F a ≤ 1) → (∀ a, a ≤ el seps 0 → F a = 0) →
      (∀ a, el seps (seps.length - 1) ≤ a → F a = 1) → ∃ F : ℝ → ℝ,
      (∀ a, integral m a e = .ok (F a)) ∧ Continuous F ∧ Monotone F ∧ (∀ a, 0 ≤ F a ∧ F a ≤ 1) ∧
      ∀ c, 0 ≤ c → c ≤ 1 → ∃ a, el seps 0 ≤ a ∧ a ≤ el seps (seps.length - 1) ∧ F a = c := by
    intro F f1 f2 f3 f4 f5 f6
    refine ⟨F, fun a => ?_, f2, f3, f4, fun c c0 c1 => ?_⟩
    · by_cases q1 : a < el seps 0
      · rw [(integral_out h hb hne e0).1 q1, f5 a q1.le]
      · by_cases q2 : el seps (seps.length - 1) ≤ a
        · rw [(integral_out h hb hne e0).2 q2, f6 a q2]
        · exact f1 a (not_lt.1 q1) (not_le.1 q2)
    · have hle : el seps 0 ≤ el seps (seps.length - 1) := grid_le h (Nat.zero_le _) (by omega)
      obtain ⟨a, ⟨a1, a2⟩, a3⟩ := intermediate_value_Icc hle f2.continuousOn
        (show c ∈ Set.Icc (F (el seps 0)) (F (el seps (seps.length - 1))) by
          rw [f5 _ le_rfl, f6 _ le_rfl]; exact ⟨c0, c1⟩)
      exact ⟨a, a1, a2, a3⟩
  by_cases hlast : el energies (energies.length - 1) ≤ e
  · obtain ⟨p1, p2, p3, p4, p5⟩ := hA (energies.length - 1) (by omega)
    refine fin (A (energies.length - 1)) (fun a a1 a2 => ?_) p1 p2 p3 p4 p5
    rw [(hi a a1 a2).2 hne e hlast]
    simp only [A, hcl a a1 a2]
  · have key : ∀ i, i < energies.length → e < el energies i →
        ∃ k, k + 1 < energies.length ∧ el energies k ≤ e ∧ e < el energies (k + 1) := by
      intro i
      induction i with
      | zero => intro _ hx; exact absurd e0 (not_le.2 hx)
      | succ i ih =>
        intro h1 h2
        by_cases hc : e < el energies i
        · exact ih (by omega) hc
        · exact ⟨i, h1, not_lt.1 hc, h2⟩
    obtain ⟨k, hk, k1, k2⟩ := key (energies.length - 1) (by omega) (not_le.1 hlast)
    obtain ⟨p1, p2, p3, p4, p5⟩ := hA k (by omega)
    obtain ⟨q1, q2, q3, q4, q5⟩ := hA (k + 1) hk
    have hd : 0 < el energies (k + 1) - el energies k := by linarith
    set w := (e - el energies k) / (el energies (k + 1) - el energies k) with hwd
    have w0 : 0 ≤ w := div_nonneg (by linarith) hd.le
    have w1 : w ≤ 1 := (div_le_one hd).2 (by linarith)
    refine fin (fun a => (1 - w) * A k a + w * A (k + 1) a) (fun a a1 a2 => ?_)
      ((p1.const_mul _).add (q1.const_mul _)) ?_ ?_ ?_ ?_
    · rw [(hi a a1 a2).1 k hk e k1 k2, between, ← hwd]
      simp only [A, hcl a a1 a2]
      congr 1; ring
    · intro x y hxy
      have := mul_le_mul_of_nonneg_left (p2 hxy) (sub_nonneg.2 w1)
      have := mul_le_mul_of_nonneg_left (q2 hxy) w0
      simp only; linarith
    · intro a
      have a1 := p3 a
      have a2 := q3 a
      constructor
      · have := mul_nonneg (sub_nonneg.2 w1) a1.1
        have := mul_nonneg w0 a2.1
        linarith
      · have := mul_le_mul_of_nonneg_left a1.2 (sub_nonneg.2 w1)
        have := mul_le_mul_of_nonneg_left a2.2 w0
        linarith
    · intro a ha; simp only [p4 a ha, q4 a ha]; ring
    · intro a ha; simp only [p5 a ha, q5 a ha]; ring

end Verif.MeanPsf
