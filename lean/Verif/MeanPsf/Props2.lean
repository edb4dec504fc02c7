import Verif.MeanPsf.Props
import Mathlib.Analysis.SpecialFunctions.Trigonometric.Bounds
import Mathlib.Tactic.FieldSimp
set_option linter.unusedSimpArgs false
set_option linter.unusedVariables false
set_option linter.unusedSectionVars false
/-
C58, continued: exposures, the grid of angles, the slope, and what goes wrong at energies
without exposure and outside the energies of the table.
-/
namespace Verif.MeanPsf
open Real Spec Verif.Vec

variable {seps energies psf : List ℝ} {m : Obj}

/-! ### The table of `init` -/

theorem table_len (n : Nat) (ex : List ℝ) (raw : Nat → Nat → ℝ) : (table n ex raw).length = ex.length * n := by
  simp [table, List.length_flatMap]

theorem table_row (ex : List ℝ) (raw : Nat → Nat → ℝ) {k j : Nat} (hk : k < ex.length) (hj : j < seps.length) :
    row seps (table seps.length ex raw) k j = entry (el ex k) (raw k j) := by
  have key : ∀ N, N ≤ ex.length → k < N →
      val ((List.range N).flatMap fun k => (List.range seps.length).map fun j => entry (ex.getD k 0) (raw k j))
        (k * seps.length + j) = entry (el ex k) (raw k j) := by
    intro N
    induction N with
    | zero => intro _ h; omega
    | succ N ih =>
      intro h1 h2
      have hlen : ((List.range N).flatMap fun k => (List.range seps.length).map fun j =>
          entry (ex.getD k 0) (raw k j)).length = N * seps.length := by simp [List.length_flatMap]
      rw [List.range_succ, List.flatMap_append]
      by_cases hc : k < N
      · have hi : k * seps.length + j < N * seps.length := idx_lt hj hc
        rw [val, List.getElem?_append_left (by rw [hlen]; exact hi)]
        exact ih (by omega) hc
      · obtain rfl : k = N := by omega
        rw [val, List.getElem?_append_right (by rw [hlen]; omega), hlen]
        simp only [List.flatMap_cons, List.flatMap_nil, List.append_nil, Nat.add_sub_cancel_left]
        rw [← val, val_map_range _ hj]; rfl
  exact key ex.length le_rfl hk

theorem cum_congr {p q : Nat → ℝ} (h : ∀ j < seps.length, p j = q j) {j : Nat} (hj : j < seps.length) :
    cum seps p j = cum seps q j := by
  induction j with
  | zero => rfl
  | succ j ih => simp only [cum, ih (by omega), ring, h j (by omega), h (j + 1) hj]

theorem cum_div (p : Nat → ℝ) (c : ℝ) (j : Nat) : cum seps (fun i => p i / c) j = cum seps p j / c := by
  induction j with
  | zero => simp [cum]
  | succ j ih =>
    have : ∀ i, ring seps (fun i => p i / c) i = ring seps p i / c := fun i => by unfold ring; ring
    simp only [cum, ih, this, line_div]; ring

/-- C58: the normalised function does not depend on the exposures, as long as they are
positive: only on the sums over the responses. -/
theorem C58_exposure (seps energies ex ex' : List ℝ) (raw : Nat → Nat → ℝ) (h : Grid seps)
    (h1 : ex.length = energies.length) (h2 : ex'.length = energies.length) (p1 : ∀ x ∈ ex, 0 < x)
    (p2 : ∀ x ∈ ex', 0 < x)
    (hw : ∀ k < energies.length, ∀ g, Polygon seps (ring seps (raw k)) g → whole seps g ≠ 0) :
    ∃ m, init seps energies ex raw = .ok m ∧ init seps energies ex' raw = .ok m := by
  have hn := h.two
  have key : ∀ ex : List ℝ, ex.length = energies.length → (∀ x ∈ ex, 0 < x) →
      ∃ m, init seps energies ex raw = .ok m ∧ m.seps = seps ∧ m.energies = energies ∧
        m.psf.length = energies.length * seps.length ∧
        (∀ k < energies.length, ∀ j < seps.length,
          el m.psf (k * seps.length + j) = raw k j / cum seps (raw k) (seps.length - 1)) ∧
        m.parts = (List.range energies.length).map fun k => (List.range seps.length).map fun j =>
          cum seps (raw k) j / cum seps (raw k) (seps.length - 1) := by
    intro ex hl hp
    obtain ⟨m, b1, hb⟩ := built (energies := energies) h (psf := table seps.length ex raw) (by rw [table_len, hl])
    have hc : ∀ k < energies.length, el ex k ≠ 0 := fun k hk => (hp _ (val_mem (by omega))).ne'
    have hT : ∀ k < energies.length, cum seps (raw k) (seps.length - 1) ≠ 0 := by
      intro k hk
      obtain ⟨g, hg⟩ := polygon_exists h (ring seps (raw k))
      rw [← whole_eq h hg]; exact hw k hk g hg
    have hr : ∀ k < energies.length, ∀ j < seps.length,
        row seps (table seps.length ex raw) k j = raw k j / el ex k := by
      intro k hk j hj
      rw [table_row ex raw (by omega) hj, entry, if_pos (show el ex k > 0 from hp _ (val_mem (by omega)))]
    have hcum : ∀ k < energies.length, ∀ j < seps.length,
        cum seps (row seps (table seps.length ex raw) k) j = cum seps (raw k) j / el ex k := by
      intro k hk j hj
      rw [cum_congr (hr k hk) hj, cum_div]
    have hd : ∀ k < energies.length, divisor seps (row seps (table seps.length ex raw) k) =
        cum seps (raw k) (seps.length - 1) / el ex k := by
      intro k hk
      rw [divisor, hcum k hk _ (by omega), if_neg (div_ne_zero (hT k hk) (hc k hk))]
    refine ⟨m, b1, hb.angs, hb.engs, hb.len, ?_, ?_⟩
    · intro k hk j hj
      have := hb.rows k hk j hj
      rw [hr k hk j hj, hd k hk] at this
      unfold row at this
      rw [this]
      have := hc k hk
      have := hT k hk
      field_simp
    · rw [hb.parts]
      apply List.map_congr_left
      intro k hk
      apply List.map_congr_left
      intro j hj
      rw [List.mem_range] at hk hj
      rw [hcum k hk j hj, hd k hk]
      have := hc k hk
      have := hT k hk
      field_simp
  obtain ⟨m, a1, a2, a3, a4, a5, a6⟩ := key ex h1 p1
  obtain ⟨m', c1, c2, c3, c4, c5, c6⟩ := key ex' h2 p2
  have : m = m' := by
    obtain ⟨s, e, p, q⟩ := m
    obtain ⟨s', e', p', q'⟩ := m'
    simp only at a2 a3 a4 a5 a6 c2 c3 c4 c5 c6
    have : p = p' := by
      apply ext_val (by rw [a4, c4])
      intro i hi
      rw [a4] at hi
      have q0 : 0 < seps.length := by omega
      have e1 : i / seps.length * seps.length + i % seps.length = i := by
        rw [Nat.mul_comm]; exact Nat.div_add_mod i _
      have e2 : i / seps.length < energies.length := by
        rw [Nat.div_lt_iff_lt_mul q0]; exact hi
      have := (a5 _ e2 _ (Nat.mod_lt i q0)).trans (c5 _ e2 _ (Nat.mod_lt i q0)).symm
      rwa [e1] at this
    rw [a2, a3, a6, this, c2, c3, c6]
  exact ⟨m, a1, by rw [c1, this]⟩

/-! ### The grid -/

/-- C58: the angles are zero, then a logarithmic grid from the smallest to the largest. -/
theorem C58_angles (xmin xmax : ℝ) (npts : Nat) (h0 : 0 < xmin) (h1 : xmin < xmax) (h2 : xmax ≤ 180)
    (hn : 2 ≤ npts) :
    Grid (createLogArray xmin xmax npts) ∧ (createLogArray xmin xmax npts).length = npts + 1 ∧
      el (createLogArray xmin xmax npts) 0 = 0 ∧ el (createLogArray xmin xmax npts) 1 = xmin ∧
      el (createLogArray xmin xmax npts) npts = xmax ∧
      ∀ i, 1 ≤ i → i < npts → el (createLogArray xmin xmax npts) (i + 1) / el (createLogArray xmin xmax npts) i =
        (xmax / xmin) ^ ((1 : ℝ) / (npts - 1)) := by
  set s := log (xmax / xmin) / ((npts : ℝ) - 1) with hs
  have hd : (0 : ℝ) < (npts : ℝ) - 1 := by
    have : (2 : ℝ) ≤ npts := by exact_mod_cast hn
    linarith
  have hlog : 0 < log (xmax / xmin) := log_pos ((one_lt_div h0).2 h1)
  have hs0 : 0 < s := div_pos hlog hd
  have hv : ∀ i < npts, el (createLogArray xmin xmax npts) (i + 1) = xmin * exp (i * s) := by
    intro i hi
    simp only [el_val, createLogArray]
    rw [val_cons_succ, val_map_range _ hi]
  have hlen : (createLogArray xmin xmax npts).length = npts + 1 := by simp [createLogArray]
  have hlast : el (createLogArray xmin xmax npts) npts = xmax := by
    have e : npts = (npts - 1) + 1 := by omega
    have := hv (npts - 1) (by omega)
    rw [← e] at this
    rw [this, Nat.cast_sub (by omega), Nat.cast_one, hs, mul_div_cancel₀ _ hd.ne', exp_log (div_pos (h0.trans h1) h0)]
    field_simp
  have hzero : el (createLogArray xmin xmax npts) 0 = 0 := rfl
  refine ⟨⟨?_, by omega, by rw [hzero], by rw [hlen]; simpa [hlast] using h2⟩, hlen, hzero, ?_, hlast, ?_⟩
  · rw [pairwise_val]
    intro i j hij hj
    rw [hlen] at hj
    rw [← el_val, ← el_val]
    obtain ⟨j', rfl⟩ : ∃ j', j = j' + 1 := ⟨j - 1, by omega⟩
    rw [hv j' (by omega)]
    rcases Nat.eq_zero_or_pos i with e | e
    · rw [e, hzero]; positivity
    · obtain ⟨i', rfl⟩ : ∃ i', i = i' + 1 := ⟨i - 1, by omega⟩
      rw [hv i' (by omega)]
      refine mul_lt_mul_of_pos_left (exp_lt_exp.2 (mul_lt_mul_of_pos_right ?_ hs0)) h0
      exact_mod_cast (by omega : i' < j')
  · rw [hv 0 (by omega)]; simp
  · intro i i1 i2
    obtain ⟨i', rfl⟩ : ∃ i', i = i' + 1 := ⟨i - 1, by omega⟩
    rw [hv (i' + 1) (by omega), hv i' (by omega), rpow_def_of_pos (div_pos (h0.trans h1) h0),
      mul_div_mul_left _ _ h0.ne', ← exp_sub]
    congr 1
    rw [hs]; push_cast; ring

/-! ### Without exposure -/

/-- C58 is violated: at an energy with no exposure nothing is normalised; no part of the
function lies in any cone short of the whole grid, and all of it in that one. -/
theorem C58_empty_violates (seps energies ex : List ℝ) (raw : Nat → Nat → ℝ) (h : Grid seps)
    (he : energies.Pairwise (· < ·)) (hl : ex.length = energies.length) (k : Nat) (hk : k < energies.length)
    (hz : el ex k ≤ 0) :
    ∃ m, init seps energies ex raw = .ok m ∧
      (∀ a, el seps 0 ≤ a → a < el seps (seps.length - 1) → integral m a (el energies k) = .ok 0) ∧
      ∀ a, el seps (seps.length - 1) ≤ a → integral m a (el energies k) = .ok 1 := by
  obtain ⟨m, b1, hb⟩ := built (energies := energies) h (psf := table seps.length ex raw) (by rw [table_len, hl])
  have hne : energies ≠ [] := by rintro rfl; simp at hk
  have hr : ∀ j < seps.length, row seps (table seps.length ex raw) k j = 0 := by
    intro j hj
    rw [table_row ex raw (by omega) hj, entry, if_neg (not_lt.2 hz)]
  have hc : ∀ j < seps.length, cum seps (row seps (table seps.length ex raw) k) j = 0 := by
    intro j hj
    rw [cum_congr (q := fun _ => (0 : ℝ) / 0) (fun i hi => by rw [hr i hi, zero_div]) hj, cum_div]; simp
  have hf : ∀ j, j + 1 < seps.length → ∀ a, frac seps (row seps (table seps.length ex raw) k) j a = 0 := by
    intro j hj a
    rw [frac, hc j (by omega), ring, ring, hr j (by omega), hr (j + 1) hj, line_eq]; simp
  refine ⟨m, b1, fun a a1 a2 => ?_, fun a a1 =>
    (integral_out h hb hne (el_le_of_lt he (Nat.zero_le k) hk)).2 a1⟩
  obtain ⟨j, hj, j1, j2, _⟩ := interval_of h a1 a2
  by_cases hkl : k + 1 < energies.length
  · rw [integral_mid h he hb hkl hj j1 j2 le_rfl (pairwise_val.1 he k (k + 1) (by omega) hkl), hf j hj, between]
    simp
  · have : k = energies.length - 1 := by omega
    subst this
    rw [integral_top h he hb hne hj j1 j2 le_rfl, hf j hj]

/-! ### Outside the energies -/

/-- C58 is violated: above the last energy the function itself is zero everywhere, but its
integral is the one at the last energy, and one over the whole grid; below the first
energy the function is zero and the integral an exception. -/
theorem C58_range_violates (seps energies psf : List ℝ) (h : Grid seps) (he : energies.Pairwise (· < ·))
    (hne : energies ≠ []) (hl : psf.length = energies.length * seps.length) (bilinear : ℝ → ℝ → ℝ) :
    ∃ m, build seps energies psf = .ok m ∧
      (∀ e, el energies (energies.length - 1) < e → (∀ theta, value bilinear m e theta = .ok 0) ∧
        integral m (el seps (seps.length - 1)) e = .ok 1 ∧
        ∀ a, integral m a e = integral m a (el energies (energies.length - 1))) ∧
      ∀ e, e < el energies 0 → (∀ theta, value bilinear m e theta = .ok 0) ∧ ∀ a, integral m a e = .throws := by
  obtain ⟨m, b1, hb⟩ := built h hl
  have hn : 0 < energies.length := List.length_pos_iff.2 hne
  have h01 := el_le_of_lt he (Nat.zero_le (energies.length - 1)) (by omega)
  refine ⟨m, b1, fun e h1 => ⟨fun theta => ?_, ?_, fun a => ?_⟩, fun e h1 => ⟨fun theta => ?_, fun a => ?_⟩⟩
  · rw [value, hb.engs, if_neg hne, vget_el hn, Res.bind_ok, vget_el (by omega), Res.bind_ok, if_pos (Or.inr h1)]
  · exact (integral_out h hb hne (h01.trans h1.le)).2 le_rfl
  · by_cases q1 : a < el seps 0
    · rw [(integral_out h hb hne (h01.trans h1.le)).1 q1, (integral_out h hb hne h01).1 q1]
    · by_cases q2 : el seps (seps.length - 1) ≤ a
      · rw [(integral_out h hb hne (h01.trans h1.le)).2 q2, (integral_out h hb hne h01).2 q2]
      · obtain ⟨j, hj, j1, j2, _⟩ := interval_of h (not_lt.1 q1) (not_le.1 q2)
        rw [integral_top h he hb hne hj j1 j2 h1.le, integral_top h he hb hne hj j1 j2 le_rfl]
  · rw [value, hb.engs, if_neg hne, vget_el hn, Res.bind_ok, vget_el (by omega), Res.bind_ok, if_pos (Or.inl h1)]
  · have hu : upperBound energies e = 0 := upperBound_eq (Nat.zero_le _) (fun i hi => absurd hi (Nat.not_lt_zero i))
      fun _ => h1
    rw [integral]
    simp only [hb.engs, hu]
    rw [if_pos ⟨trivial, hne⟩]

/-! ### The slope -/

/-- The slope of row `k` in interval `j`, per degree. -/
noncomputable def slope (seps tbl : List ℝ) (k j : Nat) : ℝ :=
  (el tbl (k * seps.length + (j + 1)) - el tbl (k * seps.length + j)) / (el seps (j + 1) - el seps j)

/-- C58 is violated: `derivative` is the slope of the table at the energy of the table below;
between two energies it is the slope of the interpolated function only if
both energies have the same slope. -/
theorem C58_slope_violates (seps energies psf : List ℝ) (h : Grid seps) (he : energies.Pairwise (· < ·))
    (hl : psf.length = energies.length * seps.length) :
    ∃ m, build seps energies psf = .ok m ∧ ∀ k j a e, k + 1 < energies.length → j + 1 < seps.length →
      el energies k < e → e < el energies (k + 1) → el seps j ≤ a → a < el seps (j + 1) →
      derivative m a e = .ok (slope seps m.psf k j) ∧ derivative m a (el energies k) = .ok (slope seps m.psf k j) ∧
      (derivative m a e = .ok (between (el energies k) (el energies (k + 1)) (slope seps m.psf k j)
        (slope seps m.psf (k + 1) j) e) ↔ slope seps m.psf k j = slope seps m.psf (k + 1) j) := by
  obtain ⟨m, b1, hb⟩ := built h hl
  refine ⟨m, b1, fun k j a e hk hj e1 e2 a1 a2 => ?_⟩
  have hs : upperBound seps a = j + 1 :=
    upperBound_eq (by omega) (fun i hi => (grid_le h (by omega) (by omega)).trans a1) fun _ => a2
  have key : ∀ e, el energies k ≤ e → e < el energies (k + 1) → derivative m a e = .ok (slope seps m.psf k j) := by
    intro e e1 e2
    have hu : upperBound energies e = k + 1 :=
      upperBound_eq (by omega) (fun i hi => (el_le_of_lt he (by omega) (by omega)).trans e1) fun _ => e2
    rw [derivative]
    simp only [hb.angs, hb.engs, hs, hu, Nat.add_sub_cancel]
    have i1 : k * seps.length + j + 1 < m.psf.length := by
      rw [hb.len, Nat.add_assoc]; exact idx_lt hj (by omega)
    rw [if_neg (by omega), if_neg (by omega), vat_el i1, Res.bind_ok, vat_el (by omega), Res.bind_ok, vget_el hj,
      Res.bind_ok, vget_el (by omega), Res.bind_ok]
    rfl
  refine ⟨key e e1.le e2, key _ le_rfl (e1.trans e2), ?_⟩
  rw [key e e1.le e2, Res.ok.injEq, between]
  have hd : 0 < el energies (k + 1) - el energies k := by linarith
  have hw : (e - el energies k) / (el energies (k + 1) - el energies k) ≠ 0 :=
    (div_pos (by linarith) hd).ne'
  constructor
  · intro hx
    have : (slope seps m.psf (k + 1) j - slope seps m.psf k j) *
        ((e - el energies k) / (el energies (k + 1) - el energies k)) = 0 := by linarith
    rcases mul_eq_zero.1 this with g | g
    · linarith
    · exact absurd g hw
  · intro hx
    rw [hx]; simp

/-! ### The hypotheses can be met -/

/-- The grid used by the code. -/
example : Grid (createLogArray 1e-4 70 400) := (C58_angles 1e-4 70 400 (by norm_num) (by norm_num) (by norm_num)
  (by norm_num)).1

theorem ex_grid : Grid [0, 30, 90] := by
  refine ⟨by norm_num, by simp, by simp [el], by norm_num [el]⟩

/-- The areas of the rows of the example. -/
theorem ex_whole (p : Nat → ℝ) (h0 : ∀ j < 3, 0 ≤ p j) (h1 : 0 < p 1) {g : ℝ → ℝ}
    (hg : Polygon [0, 30, 90] (ring [0, 30, 90] p) g) : whole [0, 30, 90] g ≠ 0 := by
  rw [whole_eq ex_grid hg]
  have d1 : rad 30 = π / 6 := by unfold rad; ring
  have d2 : rad 90 = π / 2 := by unfold rad; ring
  have d0 : rad 0 = 0 := by unfold rad; ring
  have e : cum [0, 30, 90] p (([0, 30, 90] : List ℝ).length - 1) = π * π * (1 / 12 * p 1 + (1 / 6 * p 1 + 1 / 3 * p 2)) := by
    simp only [List.length_cons, List.length_nil, Nat.zero_add, Nat.reduceAdd, Nat.reduceSub, cum, line_eq, ring, el,
      List.getD_cons_zero, List.getD_cons_succ, d0, d1, d2, sin_zero, sin_pi_div_six, sin_pi_div_two]
    have := pi_pos
    field_simp
    ring
  rw [e]
  have := pi_pos
  have := h0 2 (by norm_num)
  positivity

/-- Two energies, three angles. -/
example : ∃ m, build [0, 30, 90] [100, 1000] [3, 2, 1, 5, 2, 0] = .ok m ∧ ∀ e, el [100, 1000] 0 ≤ e → ∃ F : ℝ → ℝ,
    (∀ a, integral m a e = .ok (F a)) ∧ Continuous F ∧ Monotone F ∧ (∀ a, 0 ≤ F a ∧ F a ≤ 1) ∧
    ∀ c, 0 ≤ c → c ≤ 1 → ∃ a, el [0, 30, 90] 0 ≤ a ∧ a ≤ el [0, 30, 90] (([0, 30, 90] : List ℝ).length - 1) ∧ F a = c := by
  refine C58_monotone _ _ _ ex_grid (by norm_num) (by simp) (by simp) (by simp) ?_
  intro k hk g hg
  refine ex_whole _ ?_ ?_ hg
  · intro j hj
    have hk' : k = 0 ∨ k = 1 := by simp at hk; omega
    have hj' : j = 0 ∨ j = 1 ∨ j = 2 := by omega
    rcases hk' with rfl | rfl <;> rcases hj' with rfl | rfl | rfl <;> norm_num [el]
  · have hk' : k = 0 ∨ k = 1 := by simp at hk; omega
    rcases hk' with rfl | rfl <;> norm_num [el]

/-- Exposures at two energies. -/
example : ∃ m, init [0, 30, 90] [100, 1000] [5, 7] (fun _ j => 3 - j) = .ok m ∧
    init [0, 30, 90] [100, 1000] [1, 20] (fun _ j => 3 - j) = .ok m := by
  refine C58_exposure _ _ _ _ _ ex_grid rfl rfl (by simp) (by simp) ?_
  intro k hk g hg
  refine ex_whole _ ?_ (by norm_num) hg
  intro j hj
  have : (j : ℝ) ≤ 2 := by exact_mod_cast (by omega : j ≤ 2)
  linarith

end Verif.MeanPsf
