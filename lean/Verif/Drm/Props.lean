import Verif.Drm.Lemmas
import Verif.Edisp.Props
set_option linter.unusedVariables false
set_option linter.unusedSimpArgs false
/-
C27: convolution with the response matrix; C28: the rescaling method; C43: weighted
true counts; and the statement of C14 for `NpredValue`.
-/
namespace Verif.Drm

open Verif.Vec Verif.Edisp
open scoped BigOperators

/-! ### C27 -/

/-- C27: for a response with at least two measured bins (or none to extend), convolving a
spectrum of the right size applies the matrix to an extended spectrum whose middle part
is the given one; a spectrum of the wrong size is rejected. -/
theorem C27_convolve (d : Rsp) (hd : d.Sized) (c : List ℝ) :
    (c.length ≠ d.nmeas → convolve d c = .throws) ∧
    (c.length = d.nmeas → 2 ≤ d.nmeas ∨ d.bins = 0 →
      ∃ ext meas, convolve d c = .ok meas ∧ ext.length = d.nmeas + 2 * d.bins ∧
        (ext.drop d.bins).take d.nmeas = c ∧ meas.length = d.nmeas ∧
        ∀ kp < d.nmeas, val meas kp =
          ∑ k ∈ Finset.range (d.nmeas + 2 * d.bins), val ext k * d.entry k kp) := by
  refine ⟨fun h => by unfold convolve; rw [if_pos h], fun hc hb => ?_⟩
  obtain ⟨ext, e1, e2, e3⟩ := extend_ok d (c := c) d.bins (by omega)
  refine ⟨ext, _, convolve_ok hd hc e1 (by unfold Rsp.ntrue; omega), by omega, ?_, by simp, ?_⟩
  · apply ext_val (by simp; omega)
    intro i hi
    have hi' : i < c.length := by simp at hi; omega
    rw [val_drop_take _ _ _ _ (by omega), e3 i hi']
  · intro kp hkp
    rw [val_map_range _ hkp]; rfl

/-- On a logarithmic grid the constructor's log-ratios are 2. -/
theorem C27_log_grid (e0 r : ℝ) (he : 0 < e0) (hr : 1 < r) (n bins : Nat) (hn : 2 ≤ n)
    (rows : List (List ℝ)) :
    ∃ d, mkDrm ((List.range (n + 1)).map (fun k => e0 * r ^ k)) bins rows = .ok d ∧
      d.nmeas = n ∧ d.bins = bins ∧ d.rows = rows ∧ d.logRatioLo = 2 ∧ d.logRatioHi = 2 := by
  have hl : ((List.range (n + 1)).map (fun k => e0 * r ^ k)).length - 1 = n := by simp
  have hr0 : 0 < r := by linarith
  have hlog : Real.log r ≠ 0 := (Real.log_pos hr).ne'
  have hv : ∀ k < n + 1, vget ((List.range (n + 1)).map (fun k => e0 * r ^ k)) k =
      .ok (e0 * r ^ k) := by
    intro k hk
    rw [vget_val (by simpa using hk), val_map_range _ hk]
  unfold mkDrm
  simp only [hl]
  rw [if_pos hn, hv 0 (by omega), Res.bind_ok, hv 1 (by omega), Res.bind_ok, hv 2 (by omega),
    Res.bind_ok, hv n (by omega), Res.bind_ok, hv (n - 1) (by omega), Res.bind_ok,
    hv (n - 2) (by omega), Res.bind_ok]
  refine ⟨_, rfl, rfl, rfl, rfl, ?_, ?_⟩
  · have h1 : e0 * r ^ 0 / (e0 * r ^ 2) = (r ^ 2)⁻¹ := by field_simp
    have h2 : e0 * r ^ 1 / (e0 * r ^ 2) = r⁻¹ := by field_simp
    simp only
    rw [h1, h2, Real.log_inv, Real.log_inv, Real.log_pow]
    field_simp
    norm_num
  · obtain ⟨m, rfl⟩ : ∃ m, n = m + 2 := ⟨n - 2, by omega⟩
    have h1 : e0 * r ^ (m + 2) / (e0 * r ^ m) = r ^ 2 := by
      rw [pow_add]; field_simp
    have h2 : e0 * r ^ (m + 1) / (e0 * r ^ m) = r := by
      rw [pow_add]; field_simp
    simp only [show m + 2 - 1 = m + 1 by omega, show m + 2 - 2 = m by omega]
    rw [h1, h2, Real.log_pow]
    field_simp
    norm_num

theorem extrapolateLo_geom {d : Rsp} (h : d.logRatioLo = 2) {a b : ℝ} (ha : a > 1e-4)
    (hb : b > 1e-4) : extrapolateLo d a b = a * (a / b) := by
  have ha0 : 0 < a := lt_trans (by norm_num) ha
  have hb0 : 0 < b := lt_trans (by norm_num) hb
  unfold extrapolateLo
  rw [if_pos ⟨ha, hb⟩, h, two_mul, Real.exp_add, Real.exp_log (div_pos ha0 hb0)]
  field_simp

theorem extrapolateHi_geom {d : Rsp} (h : d.logRatioHi = 2) {a b : ℝ} (ha : a > 1e-10)
    (hb : b > 1e-10) : extrapolateHi d a b = b * (b / a) := by
  have ha0 : 0 < a := lt_trans (by norm_num) ha
  have hb0 : 0 < b := lt_trans (by norm_num) hb
  unfold extrapolateHi
  rw [if_pos ⟨hb, ha⟩, h, two_mul, Real.exp_add, Real.exp_log (div_pos hb0 ha0)]
  field_simp

/-- C27: on a logarithmic grid (log-ratios 2) the extension continues a power-law counts
spectrum `A ρ^k` exactly, as long as the counts stay above the code's floor 1e-4; so the
measured counts are the response applied to the power law on the whole true grid. -/
theorem C27_power_law (d : Rsp) (hd : d.Sized) (hlo : d.logRatioLo = 2) (hhi : d.logRatioHi = 2)
    (hn : 2 ≤ d.nmeas) (A ρ : ℝ) (hρ : 0 < ρ)
    (hfloor : ∀ k < d.nmeas + 2 * d.bins, A * ρ ^ ((k : ℤ) - d.bins) > 1e-4) :
    ∃ meas, convolve d ((List.range d.nmeas).map (fun k => A * ρ ^ k)) = .ok meas ∧
      ∀ kp < d.nmeas, val meas kp =
        ∑ k ∈ Finset.range (d.nmeas + 2 * d.bins), A * ρ ^ ((k : ℤ) - d.bins) * d.entry k kp := by
  have hρ0 : ρ ≠ 0 := hρ.ne'
  have hcl : ((List.range d.nmeas).map (fun k => A * ρ ^ k)).length = d.nmeas := by simp
  obtain ⟨ext, e1, e2, e3⟩ := loop_inv (body := fun _ c => extendStep d c) (lo := 0)
    (n := d.bins) (s := (List.range d.nmeas).map (fun k => A * ρ ^ k))
    (fun m e => e.length = d.nmeas + 2 * m ∧
      ∀ i < d.nmeas + 2 * m, val e i = A * ρ ^ ((i : ℤ) - m))
    ⟨by simp, by
      intro i hi
      rw [val_map_range _ (by omega)]; simp⟩
    (by
      rintro m e _ hm ⟨i1, i2⟩
      rw [Nat.zero_add] at hm
      have hfl : ∀ i < d.nmeas + 2 * m, A * ρ ^ ((i : ℤ) - m) > 1e-4 := by
        intro i hi
        have := hfloor (i + (d.bins - m)) (by omega)
        rwa [show ((i + (d.bins - m) : Nat) : ℤ) - d.bins = (i : ℤ) - m by omega] at this
      obtain ⟨e', g1, g2, g3, g4, g5⟩ := extendStep_ok d (c := e) (by omega)
      refine ⟨e', g1, by omega, ?_⟩
      intro i hi
      rcases Nat.eq_zero_or_pos i with h0 | h0
      · subst h0
        rw [g4, i2 0 (by omega), i2 1 (by omega),
          extrapolateLo_geom hlo (hfl 0 (by omega)) (hfl 1 (by omega))]
        have hA : A ≠ 0 := by
          intro hA
          have := hfl 0 (by omega)
          rw [hA, zero_mul] at this
          norm_num at this
        rw [show ((1 : Nat) : ℤ) - m = ((0 : Nat) : ℤ) - m + 1 by omega,
          show ((0 : Nat) : ℤ) - (m + 1 : Nat) = ((0 : Nat) : ℤ) - m - 1 by omega,
          zpow_add_one₀ hρ0, zpow_sub_one₀ hρ0]
        have := (zpow_pos hρ (((0 : Nat) : ℤ) - m)).ne'
        field_simp
      · rcases Nat.lt_or_ge (i - 1) e.length with h1 | h1
        · have := g3 (i - 1) h1
          rw [Nat.sub_add_cancel h0] at this
          rw [this, i2 _ (by omega)]
          congr 2
          omega
        · have hi' : i = e.length + 1 := by omega
          rw [hi', g5, i2 _ (by omega), i2 _ (by omega)]
          have f1 := hfl (e.length - 2) (by omega)
          have f2 := hfl (e.length - 1) (by omega)
          rw [extrapolateHi_geom hhi (lt_trans (by norm_num) f1) (lt_trans (by norm_num) f2)]
          have hA : A ≠ 0 := by
            intro hA
            rw [hA, zero_mul] at f1
            norm_num at f1
          rw [show ((e.length + 1 : Nat) : ℤ) - (m + 1 : Nat) =
              ((e.length - 1 : Nat) : ℤ) - m + 1 by omega,
            show ((e.length - 2 : Nat) : ℤ) - m = ((e.length - 1 : Nat) : ℤ) - m - 1 by omega,
            zpow_add_one₀ hρ0, zpow_sub_one₀ hρ0]
          have := (zpow_pos hρ (((e.length - 1 : Nat) : ℤ) - m)).ne'
          field_simp)
  rw [Nat.zero_add] at e2 e3
  refine ⟨_, convolve_ok hd hcl e1 (by unfold Rsp.ntrue; exact e2), ?_⟩
  intro kp hkp
  rw [val_map_range _ hkp]
  apply Finset.sum_congr rfl
  intro k hk
  rw [Finset.mem_range] at hk
  rw [e3 k hk]

/-- The hypotheses are met: two bins on the grid 1, 2, 4, one extra bin each side, counts
8, 4 (power law) and a two-column table. -/
example : ∃ d : Rsp, d.Sized ∧ d.logRatioLo = 2 ∧ d.logRatioHi = 2 ∧ 2 ≤ d.nmeas ∧ d.bins = 1 ∧
    ∀ k < d.nmeas + 2 * d.bins, (8 : ℝ) * (1 / 2 : ℝ) ^ ((k : ℤ) - d.bins) > 1e-4 := by
  refine ⟨⟨2, 1, [[1, 0], [1, 0], [0, 1], [0, 1]], 2, 1, 2, 1⟩, ⟨rfl, ?_⟩, rfl, rfl, le_rfl, rfl, ?_⟩
  · intro r hr; simp at hr; rcases hr with rfl | rfl <;> rfl
  · intro k hk
    have hk' : k < 4 := hk
    obtain rfl | rfl | rfl | rfl : k = 0 ∨ k = 1 ∨ k = 2 ∨ k = 3 := by omega
    all_goals norm_num

/-- The point `(x, y)` is on the straight line through `(x1, y1)` and `(x2, y2)`. -/
def OnLine (x1 y1 x2 y2 x y : ℝ) : Prop := (y - y1) * (x2 - x1) = (y2 - y1) * (x - x1)

/-- C27: with one extra bin on each side the response is applied to the spectrum extended by
one value below and one above.  The value below is on the line through the two lowest
counts (placed at the upper two of the three lowest energies), taken at the lowest energy, in
logarithms when both counts exceed 1e-4; likewise above, with the limit 1e-10. -/
theorem C27_one_extra_bin (energies : List ℝ) (hl : 3 ≤ energies.length)
    (hpos : ∀ e ∈ energies, 0 < e) (hinc : energies.Pairwise (· < ·)) (rows : List (List ℝ))
    (hr : rows.length = energies.length + 1) (hc : ∀ r ∈ rows, r.length = energies.length - 1)
    (c : List ℝ) (hcl : c.length = energies.length - 1) :
    ∃ d lo hi meas, mkDrm energies 1 rows = .ok d ∧ convolve d c = .ok meas ∧
      meas.length = energies.length - 1 ∧
      (∀ kp < energies.length - 1, val meas kp =
        ∑ k ∈ Finset.range (energies.length + 1), val (lo :: c ++ [hi]) k * val (rows[k]?.getD []) kp) ∧
      (val c 0 > 1e-4 ∧ val c 1 > 1e-4 → 0 < lo ∧
        OnLine (Real.log (val energies 2)) (Real.log (val c 1)) (Real.log (val energies 1))
          (Real.log (val c 0)) (Real.log (val energies 0)) (Real.log lo)) ∧
      (¬ (val c 0 > 1e-4 ∧ val c 1 > 1e-4) →
        OnLine (val energies 2) (val c 1) (val energies 1) (val c 0) (val energies 0) lo) ∧
      (val c (c.length - 2) > 1e-10 ∧ val c (c.length - 1) > 1e-10 → 0 < hi ∧
        OnLine (Real.log (val energies (energies.length - 3))) (Real.log (val c (c.length - 2)))
          (Real.log (val energies (energies.length - 2))) (Real.log (val c (c.length - 1)))
          (Real.log (val energies (energies.length - 1))) (Real.log hi)) ∧
      (¬ (val c (c.length - 2) > 1e-10 ∧ val c (c.length - 1) > 1e-10) →
        OnLine (val energies (energies.length - 3)) (val c (c.length - 2))
          (val energies (energies.length - 2)) (val c (c.length - 1))
          (val energies (energies.length - 1)) hi) := by
  have ep : ∀ i < energies.length, 0 < val energies i := fun i hi => hpos _ (val_mem hi)
  have el : ∀ i j, i < j → j < energies.length → val energies i < val energies j := by
    intro i j hij hj
    exact pairwise_val.1 hinc i j hij hj
  have hlog : ∀ i j, i < j → j < energies.length →
      Real.log (val energies i) < Real.log (val energies j) := fun i j hij hj =>
    Real.log_lt_log (ep i (by omega)) (el i j hij hj)
  have ldiv : ∀ i j, i < energies.length → j < energies.length →
      Real.log (val energies i / val energies j) =
        Real.log (val energies i) - Real.log (val energies j) := fun i j hi hj =>
    Real.log_div (ep i hi).ne' (ep j hj).ne'
  have hd : mkDrm energies 1 rows = .ok ⟨energies.length - 1, 1, rows,
      Real.log (val energies 0 / val energies 2) / Real.log (val energies 1 / val energies 2),
      (val energies 0 - val energies 2) / (val energies 1 - val energies 2),
      Real.log (val energies (energies.length - 1) / val energies (energies.length - 3)) /
        Real.log (val energies (energies.length - 2) / val energies (energies.length - 3)),
      (val energies (energies.length - 1) - val energies (energies.length - 3)) /
        (val energies (energies.length - 2) - val energies (energies.length - 3))⟩ := by
    unfold mkDrm
    simp only
    rw [if_pos (by omega), vget_val (by omega), Res.bind_ok, vget_val (by omega), Res.bind_ok,
      vget_val (by omega), Res.bind_ok, vget_val (by omega), Res.bind_ok, vget_val (by omega),
      Res.bind_ok, vget_val (by omega), Res.bind_ok,
      show energies.length - 1 - 1 = energies.length - 2 by omega,
      show energies.length - 1 - 2 = energies.length - 3 by omega]
  set d : Rsp := ⟨energies.length - 1, 1, rows, _, _, _, _⟩ with hdd
  have hsz : d.Sized := ⟨by simp only [hdd, Rsp.ntrue]; omega, hc⟩
  obtain ⟨ext, e1, e2, e3, e4, e5⟩ := extendStep_ok d (c := c) (by omega)
  have hext : ext = extrapolateLo d (val c 0) (val c 1) :: c ++
      [extrapolateHi d (val c (c.length - 2)) (val c (c.length - 1))] := by
    apply ext_val
    · simp [e2]
    · intro i hi
      rcases Nat.eq_zero_or_pos i with rfl | hp
      · rw [e4]; rfl
      · obtain ⟨j, rfl⟩ : ∃ j, i = j + 1 := ⟨i - 1, by omega⟩
        rw [List.cons_append, val_cons_succ]
        by_cases hj : j < c.length
        · rw [e3 j hj]
          unfold val
          rw [List.getElem?_append_left hj]
        · have : j = c.length := by omega
          subst this
          rw [e5]
          unfold val
          rw [List.getElem?_append_right (le_refl _)]
          simp
  have hconv := convolve_ok hsz (c := c) (ext := ext) (by rw [hcl]) (by
      show loop (fun _ c => extendStep d c) 0 1 c = .ok ext
      simp only [loop, e1, Res.bind_ok]) (by rw [e2]; simp only [hdd, Rsp.ntrue]; omega)
  refine ⟨d, extrapolateLo d (val c 0) (val c 1),
    extrapolateHi d (val c (c.length - 2)) (val c (c.length - 1)), _, hd, hconv, by simp [hdd],
    ?_, ?_, ?_, ?_, ?_⟩
  · intro kp hkp
    rw [val_map_range _ (show kp < d.nmeas from hkp), ← hext]
    have : d.ntrue = energies.length + 1 := by simp only [hdd, Rsp.ntrue]; omega
    rw [this]
    rfl
  · intro hb
    have p0 : 0 < val c 0 := lt_trans (by norm_num) hb.1
    have p1 : 0 < val c 1 := lt_trans (by norm_num) hb.2
    have hlo : extrapolateLo d (val c 0) (val c 1) =
        val c 1 * Real.exp (d.logRatioLo * Real.log (val c 0 / val c 1)) := by
      unfold extrapolateLo; rw [if_pos hb]
    rw [hlo]
    refine ⟨mul_pos p1 (Real.exp_pos _), ?_⟩
    unfold OnLine
    rw [Real.log_mul p1.ne' (Real.exp_pos _).ne', Real.log_exp, Real.log_div p0.ne' p1.ne']
    have h21 := hlog 1 2 (by omega) (by omega)
    have hne : Real.log (val energies 1) - Real.log (val energies 2) ≠ 0 := by
      intro h; linarith
    simp only [hdd]
    rw [ldiv _ _ (by omega) (by omega), ldiv _ _ (by omega) (by omega)]
    field_simp
    ring
  · intro hb
    have hlo : extrapolateLo d (val c 0) (val c 1) =
        d.diffRatioLo * (val c 0 - val c 1) + val c 1 := by
      unfold extrapolateLo; rw [if_neg hb]
    rw [hlo]
    unfold OnLine
    have h21 := el 1 2 (by omega) (by omega)
    have hne : val energies 1 - val energies 2 ≠ 0 := by
      intro h; linarith
    simp only [hdd]
    field_simp
    ring
  · intro hb
    have p0 : 0 < val c (c.length - 2) := lt_trans (by norm_num) hb.1
    have p1 : 0 < val c (c.length - 1) := lt_trans (by norm_num) hb.2
    have hlo : extrapolateHi d (val c (c.length - 2)) (val c (c.length - 1)) =
        val c (c.length - 2) * Real.exp (d.logRatioHi *
          Real.log (val c (c.length - 1) / val c (c.length - 2))) := by
      unfold extrapolateHi; rw [if_pos ⟨hb.2, hb.1⟩]
    rw [hlo]
    refine ⟨mul_pos p0 (Real.exp_pos _), ?_⟩
    unfold OnLine
    rw [Real.log_mul p0.ne' (Real.exp_pos _).ne', Real.log_exp, Real.log_div p1.ne' p0.ne']
    have h21 := hlog (energies.length - 3) (energies.length - 2) (by omega) (by omega)
    have hne : Real.log (val energies (energies.length - 2)) -
        Real.log (val energies (energies.length - 3)) ≠ 0 := by
      intro h; linarith
    simp only [hdd]
    rw [ldiv _ _ (by omega) (by omega), ldiv _ _ (by omega) (by omega)]
    field_simp
    ring
  · intro hb
    have hlo : extrapolateHi d (val c (c.length - 2)) (val c (c.length - 1)) =
        d.diffRatioHi * (val c (c.length - 1) - val c (c.length - 2)) + val c (c.length - 2) := by
      unfold extrapolateHi; rw [if_neg (fun h => hb ⟨h.2, h.1⟩)]
    rw [hlo]
    unfold OnLine
    have h21 := el (energies.length - 3) (energies.length - 2) (by omega) (by omega)
    have hne : val energies (energies.length - 2) - val energies (energies.length - 3) ≠ 0 := by
      intro h; linarith
    simp only [hdd]
    field_simp
    ring

/-- Three energies, two bins, falling counts: the hypotheses are met. -/
example : ∃ d meas, mkDrm [1, 3, 4] 1 [[1, 0], [1, 0], [0, 1], [0, 1]] = .ok d ∧
    convolve d [2, 0] = .ok meas ∧ meas.length = 2 := by
  obtain ⟨d, lo, hi, meas, h1, h2, h3, -⟩ := C27_one_extra_bin [1, 3, 4] (by simp)
    (by simp) (by norm_num) [[1, 0], [1, 0], [0, 1], [0, 1]] rfl (by simp) [2, 0] rfl
  exact ⟨d, meas, h1, h2, h3⟩

/-- C27: the columns handed to the full dispersion method are those of the matrix. -/
theorem C27_columns (d : Rsp) (hd : d.Sized) :
    ∃ cols, transpose d = .ok cols ∧ cols.length = d.nmeas ∧
      ∀ kp < d.nmeas, ∃ col, cols[kp]? = some col ∧ col.length = d.nmeas + 2 * d.bins ∧
        ∀ k < d.nmeas + 2 * d.bins, val col k = val (d.rows[k]?.getD []) kp := by
  refine ⟨(List.range d.nmeas).map (fun kp => (List.range d.ntrue).map (fun k => d.entry k kp)),
    ?_, by simp, ?_⟩
  · unfold transpose
    apply mapM_ok
    intro kp hkp
    apply mapM_ok
    intro k hk
    obtain ⟨r, r1, r2⟩ := entry_ok hd (List.mem_range.mp hk) (List.mem_range.mp hkp)
    rw [r1, Res.bind_ok, r2]
  · intro kp hkp
    refine ⟨(List.range d.ntrue).map (fun k => d.entry k kp), ?_, by simp [Rsp.ntrue], ?_⟩
    · rw [List.getElem?_map, List.getElem?_range hkp]; rfl
    · intro k hk
      rw [val_map_range _ (show k < d.ntrue from hk)]
      rfl

/-- C27, refuted for a single measured bin: with extra true-energy bins the extension
reads a second element that does not exist, for every response and spectrum. -/
theorem C27_single_bin_violates (d : Rsp) (hn : d.nmeas = 1) (hb : 0 < d.bins) (x : ℝ) :
    convolve d [x] = .ub := by
  obtain ⟨b, hb'⟩ : ∃ b, d.bins = b + 1 := ⟨d.bins - 1, by omega⟩
  unfold convolve
  rw [if_neg (by simp [hn]), hb']
  simp [loop, extendStep, vget]

/-- C27, refuted: the linear extension of a rising spectrum is negative, so non-negative
counts and responses can give negative measured counts (grid 1, 2, 4; counts 0, 1;
lowest true bin spilling into the first measured bin). -/
theorem C27_negative_violates :
    ∃ d, mkDrm [1, 2, 4] 1 [[1, 0], [0, 0], [0, 0], [0, 0]] = .ok d ∧
      convolve d [0, 1] = .ok [-(1 / 2), 0] := by
  refine ⟨_, rfl, ?_⟩
  simp only [convolve, extendStep, loop, extrapolateLo, extrapolateHi, Rsp.ntrue, vget,
    List.mapM_cons, List.range, List.range.loop, List.length_cons, List.length_nil, List.mapM_nil,
    Nat.reduceAdd, Nat.reduceSub, ne_eq, not_true, if_false, List.getElem?_cons_zero,
    List.getElem?_cons_succ, Res.bind_ok, List.cons_append, List.nil_append]
  norm_num

/-! ### C28 -/

/-- C28: in the rescaling method, if the first energy bin has true counts, the cache is
computed without leaving any vector, its measured counts are the convolved true counts
(negative ones set to zero), and for every bin the correction factor times the true
counts of the bin it refers to gives the measured counts; the reference bin is an earlier
bin with true counts, or the bin itself. -/
theorem C28_rescaling_partial (s : SrcMap ℝ) (h : s.Ok) (hev : s.ev < 0) (d : Rsp)
    (hd : d.Sized) (hn : d.nmeas = s.nebins) (hb : 2 ≤ d.nmeas ∨ d.bins = 0)
    (h0 : 0 < s.nebins → 0 < trueAt s 0) :
    ∃ c meas, updateCache s d s.npreds s.wnpreds = .ok c ∧
      c.trueC.length = s.nebins ∧ c.measC.length = s.nebins ∧
      convolve d c.trueC = .ok meas ∧ c.measC = meas.map (fun x => max x 0) ∧
      ∀ k < s.nebins, ∃ r ≤ k, 0 < val c.trueC r ∧ val c.xi k * val c.trueC r = val c.measC k ∧
        (val c.kref k = -1 ∧ r = k ∨ val c.kref k = r) := by
  obtain ⟨ext, e1, e2, e3⟩ := extend_ok d (c := (List.range d.nmeas).map (trueAt s)) d.bins
    (by simpa using hb)
  have hconv := convolve_ok hd (by simp) e1 (by simp at e2; unfold Rsp.ntrue; exact e2)
  have hraw := hconv
  rw [show convolve d ((List.range d.nmeas).map (trueAt s)) = rawMeas s d by
    simp [rawMeas, measured, hev]] at hraw
  obtain ⟨c, c1, c2, c3, c4, c5, c6, c7, c8, c9, c10⟩ := updateCache_ok h hn (fun _ => h0) hraw
    (by simp [hn])
  refine ⟨c, _, c1, by rw [c2]; simp, by rw [c4]; simp [hn], by rw [c2, ← hn]; exact hconv, ?_, ?_⟩
  · rw [c4]
    apply List.map_congr_left
    intro x _
    by_cases hx : x < 0
    · rw [if_pos hx, max_eq_right hx.le]
    · rw [if_neg hx, max_eq_left (not_lt.1 hx)]
  · intro k hk
    have g := c7 k hk
    by_cases hp : 0 < val c.trueC k
    · obtain ⟨g1, g2⟩ := g.own hp
      exact ⟨k, le_rfl, hp, by rw [g1]; field_simp, Or.inl ⟨g2, rfl⟩⟩
    · have hT0 : 0 < val c.trueC 0 := by
        rw [c2, val_map_range _ (by omega)]; exact h0 (by omega)
      have hk0 : 0 < k := by
        rcases Nat.eq_zero_or_pos k with h' | h'
        · subst h'; exact absurd hT0 hp
        · exact h'
      obtain ⟨g1, g2, g3, g4⟩ := g.borrow (not_lt.1 hp) ⟨0, hk0, hT0⟩
      refine ⟨(val c.kref k).toNat, by omega, g3, by rw [g4]; field_simp, Or.inr (by omega)⟩

/-- C28, refuted: in the rescaling method a first energy bin without true counts makes
the weighted bookkeeping read element -1 of a vector, whatever the rest of the source,
response and weights (and however the response is sized). -/
theorem C28_first_bin_violates (s : SrcMap ℝ) (h : s.Ok) (hev : s.ev < 0) (hne : 0 < s.nebins)
    (d : Rsp) (hd : d.Sized) (hn : d.nmeas = s.nebins) (hb : 2 ≤ d.nmeas ∨ d.bins = 0)
    (h0 : trueAt s 0 ≤ 0) :
    updateCache s d s.npreds s.wnpreds = .ub := by
  obtain ⟨ext, e1, e2, e3⟩ := extend_ok d (c := (List.range d.nmeas).map (trueAt s)) d.bins
    (by simpa using hb)
  have hconv := convolve_ok hd (by simp) e1 (by simp at e2; unfold Rsp.ntrue; exact e2)
  have hrows : (List.range d.nmeas).mapM (countsOfBin s s.npreds s.wnpreds) =
      .ok ((List.range d.nmeas).map (fun k => ((trueAt s k, trueWtAt s k), measAt s k))) := by
    apply mapM_ok
    intro k hk
    rw [List.mem_range] at hk
    exact countsOfBin_ok h (by omega)
  unfold updateCache
  rw [hrows, Res.bind_ok]
  simp only [List.map_map, Function.comp_def, measured, hev, if_true]
  rw [show (fun x => trueAt s x) = trueAt s from rfl, hconv, Res.bind_ok]
  obtain ⟨m, hm⟩ : ∃ m, d.nmeas = m + 1 := ⟨d.nmeas - 1, by omega⟩
  have hc : ∀ M : List ℝ, M.length = d.nmeas →
      xiChoice ((List.range d.nmeas).map (trueAt s)) M (-1) 0 = .ok (1, -1, -1) := by
    intro M hM
    unfold xiChoice
    rw [vget_val (by simp; omega), Res.bind_ok, vget_val (by omega), Res.bind_ok,
      val_map_range _ (by omega), if_neg (not_lt.2 h0), if_neg (by decide)]
  have hstep : ∀ (M W mw : List ℝ), M.length = d.nmeas →
      xiStep s ((List.range d.nmeas).map (trueAt s)) M W 0 ⟨-1, [], [], mw⟩ = .ub := by
    intro M W mw hM
    unfold xiStep
    rw [hc M hM, Res.bind_ok]
    simp only
    rw [if_pos hev]
    rfl
  have hloop : ∀ (M W mw : List ℝ), M.length = d.nmeas →
      loop (xiStep s ((List.range d.nmeas).map (trueAt s)) M W) 0 d.nmeas ⟨-1, [], [], mw⟩ =
        .ub := by
    intro M W mw hM
    have := hstep M W mw hM
    rw [hm] at this ⊢
    rw [loop, this, Res.bind_ub]
  rw [hloop _ _ _ (by simp), Res.bind_ub]

/-- A one-bin map in the rescaling method whose first bin is empty: the hypotheses of the
refutation are met. -/
noncomputable def exEmptyBin : SrcMap ℝ :=
  { nebins := 1, ev := -1, eb := 0, off := 0, drmBins := 0, npix := 1,
    model := [0, 0], specWts := [(1, 1)], drmCols := [[1]], xi := [1], kref := [-1],
    weights := none }

example : exEmptyBin.Ok ∧ trueAt exEmptyBin 0 ≤ 0 ∧ (⟨1, 0, [[1]], 0, 0, 0, 0⟩ : Rsp).Sized := by
  refine ⟨⟨⟨rfl, fun h => absurd h (by decide)⟩, rfl, rfl, rfl, ?_, rfl, rfl, ?_, ?_⟩, ?_, ⟨rfl, ?_⟩⟩
  · intro c hc; simp [exEmptyBin] at hc; subst hc; rfl
  · intro r hr; simp [exEmptyBin] at hr; subst hr; decide
  · intro w hw; simp [exEmptyBin] at hw
  · simp [trueAt, SrcMap.plane, SrcMap.at', exEmptyBin, val]
  · intro r hr; simp at hr; subst hr; rfl

/-- A one-bin map with counts: the hypotheses of `C28_rescaling_partial` are met. -/
example : ∃ s : SrcMap ℝ, s.Ok ∧ s.ev < 0 ∧ s.nebins = 1 ∧ 0 < trueAt s 0 := by
  refine ⟨{ exEmptyBin with model := [1, 1] },
    ⟨⟨rfl, fun h => absurd h (by decide)⟩, rfl, rfl, rfl, ?_, rfl, rfl, ?_, ?_⟩, by decide, rfl, ?_⟩
  · intro c hc; simp [exEmptyBin] at hc; subst hc; rfl
  · intro r hr; simp [exEmptyBin] at hr; subst hr; decide
  · intro w hw; simp [exEmptyBin] at hw
  · simp [trueAt, SrcMap.plane, SrcMap.at', exEmptyBin, val]

/-! ### C14 for `NpredValue` -/

theorem plane_withCache (s : SrcMap ℝ) (c : Cache) (k : Nat) :
    (withCache s c).plane k = s.plane k := rfl

/-- C14 for the likelihood's `NpredValue`: after the source's cache is updated, the
predicted counts of every measured bin used by `NpredValue` are the plane sums of the
source's model map made with that cache, for every dispersion method, provided the plane
sums are non-negative (they are for physical sources, C38) and, in the rescaling method,
the first bin has true counts. -/
theorem C14_npred_value (s : SrcMap ℝ) (h : s.Ok) (d : Rsp) (hd : d.Sized)
    (hn : d.nmeas = s.nebins) (hb : 2 ≤ d.nmeas ∨ d.bins = 0)
    (h0 : s.ev < 0 → 0 < s.nebins → 0 < trueAt s 0) :
    ∃ c mm, updateCache s d s.npreds s.wnpreds = .ok c ∧
      updateModelMap (withCache s c) false (List.replicate (s.nebins * s.npix) 0) = .ok mm ∧
      ((∀ k < s.nebins, 0 ≤ planeSum s.npix mm k) →
        ∀ kmin kmax ev, kmin ≤ kmax → kmax ≤ s.nebins → (ev ≠ 0 ∨ s.ev = 0) →
          summedCounts c kmin kmax ev false =
            .ok (∑ k ∈ Finset.range (kmax - kmin), planeSum s.npix mm (kmin + k))) := by
  -- the raw measured counts exist
  obtain ⟨raw, hraw, hrl⟩ : ∃ raw, rawMeas s d = .ok raw ∧ raw.length = s.nebins := by
    by_cases hev : s.ev < 0
    · obtain ⟨ext, e1, e2, e3⟩ := extend_ok d (c := (List.range d.nmeas).map (trueAt s)) d.bins
        (by simpa using hb)
      have hc := convolve_ok hd (by simp) e1 (by simp at e2; unfold Rsp.ntrue; exact e2)
      exact ⟨_, by rw [rawMeas, measured, if_pos hev]; exact hc, by simp [hn]⟩
    · exact ⟨_, by rw [rawMeas, measured, if_neg hev], by simp [hn]⟩
  obtain ⟨c, c1, c2, c3, c4, c5, c6, c7, c8, c9, c10⟩ := updateCache_ok h hn h0 hraw hrl
  have hok := withCache_ok h c5 c6 c7
  obtain ⟨mm, m1, m2, m3⟩ := updateModelMap_ok hok false
    (map := List.replicate (s.nebins * s.npix) 0) (by simp [withCache])
  refine ⟨c, mm, c1, m1, ?_⟩
  intro hnn kmin kmax ev hk1 hk2 hev0
  have hT : ∀ k < s.nebins, val c.trueC k = trueAt s k := by
    intro k hk; rw [c2, val_map_range _ hk]
  -- plane sums of the map
  have hps : ∀ k < s.nebins, planeSum s.npix mm k =
      (withCache s c).bin s.specWts ((withCache s c).disp k) k := by
    intro k hk
    rw [← sum_pix]
    apply Finset.sum_congr rfl
    intro p hp
    have := m3 k p hk (Finset.mem_range.1 hp)
    rw [if_neg (by simp [SrcMap.Masked]), val_replicate_zero, zero_add] at this
    exact this
  -- each measured count is the plane sum
  have hmeas : ∀ k < s.nebins, val c.measC k = planeSum s.npix mm k := by
    intro k hk
    have hM : val c.measC k = if val raw k < 0 then 0 else val raw k := by
      rw [c4]
      have : k < raw.length := by omega
      rw [val_lt (by simpa using this), List.getElem_map, val_lt this]
    by_cases hev : s.ev < 0
    · have hsum : planeSum s.npix mm k =
          val c.xi k * trueAt s (refBin (val c.kref k) k) := by
        rw [hps k hk]
        unfold SrcMap.bin
        have hev' : (withCache s c).ev < 0 := hev
        have hnT : (withCache s c).nTrue = 1 := nTrue_of_nonpos (not_lt.2 hev'.le)
        rw [hnT, Finset.sum_range_one]
        have hf : (withCache s c).first k = refBin (val c.kref k) k + s.eb := by
          unfold SrcMap.first refBin
          by_cases hr : 0 ≤ val c.kref k
          · rw [if_pos ⟨hev', hr⟩, if_pos hr]; rfl
          · rw [if_neg (fun hh => hr hh.2), if_neg hr]
            unfold Geom.kmin
            have : (withCache s c).ev.toNat = 0 := by omega
            rw [this]; rfl
        rw [hf]
        have hd' : (withCache s c).disp k 0 = val c.xi k := by
          unfold SrcMap.disp
          rw [if_neg (not_lt.2 hev'.le), if_pos hev']; rfl
        rw [hd']; rfl
      rw [hsum]
      have g := c7 k hk
      by_cases hp : 0 < val c.trueC k
      · obtain ⟨g1, g2⟩ := g.own hp
        rw [g1, g2]
        simp only [refBin, show ¬ (0 : Int) ≤ -1 by decide, if_false]
        rw [← hT k hk]; field_simp
      · have hT0 : 0 < val c.trueC 0 := by
          rw [hT 0 (by omega)]; exact h0 hev (by omega)
        have hk0 : 0 < k := by
          rcases Nat.eq_zero_or_pos k with h' | h'
          · subst h'; exact absurd hT0 hp
          · exact h'
        obtain ⟨g1, g2, g3, g4⟩ := g.borrow (not_lt.1 hp) ⟨0, hk0, hT0⟩
        rw [g4]
        simp only [refBin, g1, if_true]
        rw [← hT _ (by omega)]; field_simp
    · -- no rescaling: the measured counts are the bin sums
      have hrawk : val raw k = planeSum s.npix mm k := by
        rw [rawMeas, measured, if_neg hev] at hraw
        have := Res.ok.inj hraw
        rw [← this, val_map_range _ (by omega), hps k hk]
        unfold measAt
        by_cases hp : 0 < s.ev
        · rw [if_pos hp]
          have e1 : (withCache s c).disp k = s.disp k := by
            funext i
            unfold SrcMap.disp
            have : 0 < (withCache s c).ev := hp
            rw [if_pos this, if_pos hp]; rfl
          have e2 : (withCache s c).first k = s.first k := by
            unfold SrcMap.first
            have : ¬ (withCache s c).ev < 0 := hev
            rw [if_neg (fun hh => this hh.1), if_neg (fun hh => hev hh.1)]; rfl
          unfold SrcMap.bin
          rw [e1, e2]; rfl
        · rw [if_neg hp]
          have hz : s.ev = 0 := by omega
          have hz' : (withCache s c).ev = 0 := hz
          unfold SrcMap.bin
          rw [nTrue_of_nonpos (g := (withCache s c).toGeom) (by omega), Finset.sum_range_one]
          have hf : (withCache s c).first k = k + s.eb := by
            unfold SrcMap.first Geom.kmin
            rw [if_neg (by omega), hz']; rfl
          have hd' : (withCache s c).disp k 0 = 1 := by
            unfold SrcMap.disp
            rw [hz']; simp
          rw [hf, hd', one_mul]; rfl
      rw [hM, hrawk, if_neg (not_lt.2 (hnn k hk))]
  -- the true counts without dispersion are also the plane sums
  have htrue : s.ev = 0 → ∀ k < s.nebins, val c.trueC k = planeSum s.npix mm k := by
    intro hz k hk
    rw [hT k hk, hps k hk]
    have hz' : (withCache s c).ev = 0 := hz
    unfold SrcMap.bin
    rw [nTrue_of_nonpos (g := (withCache s c).toGeom) (by omega), Finset.sum_range_one]
    have hf : (withCache s c).first k = k + s.eb := by
      unfold SrcMap.first Geom.kmin
      rw [if_neg (by omega), hz']; rfl
    have hd' : (withCache s c).disp k 0 = 1 := by
      unfold SrcMap.disp
      rw [hz']; simp
    rw [hf, hd', one_mul]; rfl
  have hml : c.measC.length = s.nebins := by rw [c4]; simp [hrl]
  have htl : c.trueC.length = s.nebins := by rw [c2]; simp
  unfold summedCounts
  simp only [Bool.false_eq_true, if_false]
  rw [loop_sum (fun k => planeSum s.npix mm k), zero_add]
  intro i acc hi1 hi2
  by_cases hz : ev = 0
  · rcases hev0 with hh | hh
    · exact absurd hz hh
    · rw [if_pos hz, vget_val (by omega), Res.bind_ok, htrue hh i (by omega)]
  · rw [if_neg hz, vget_val (by omega), Res.bind_ok, hmeas i (by omega)]

/-! ### C43 -/

/-- C43: without the full dispersion method the stored weighted true counts are the
weighted sums of the undispersed counts of the bin's pixels. -/
theorem C43_weighted_true_partial (s : SrcMap ℝ) (h : s.Ok) (hev : s.ev ≤ 0) (k : Nat)
    (hk : k < s.nebins) :
    ∃ t, countsOfBin s s.npreds s.wnpreds k = .ok t ∧
      t.1.2 = ∑ p ∈ Finset.range s.npix, s.wt k p *
        (val s.model ((k + s.eb) * s.npix + p) * (val s.specWts (k + s.eb)).1 +
          val s.model ((k + s.eb + 1) * s.npix + p) * (val s.specWts (k + s.eb)).2) := by
  refine ⟨_, countsOfBin_ok h hk, ?_⟩
  have hkm : s.kmin k = k + s.eb := by unfold Geom.kmin; omega
  simp only [trueWtAt, hkm, SrcMap.wplane, Finset.sum_mul]
  rw [← Finset.sum_add_distrib]
  apply Finset.sum_congr rfl
  intro p _
  unfold SrcMap.at'
  ring

/-- The map of the refutation: one bin, full method over one extra bin, all weights 1. -/
noncomputable def exWt : SrcMap ℝ :=
  { nebins := 1, ev := 1, eb := 1, off := 0, drmBins := 1, npix := 1,
    model := [1, 0, 0, 0], specWts := [(1, 1), (1, 1), (1, 1)], drmCols := [[0, 0, 0]],
    xi := [1], kref := [-1], weights := none }

/-- C43, refuted for the full method: with all weights 1 the weighted true counts of the
bin differ from its true counts (1 instead of 0): they are taken from the lowest plane of
the dispersion range instead of the bin's own. -/
theorem C43_violates : exWt.Ok ∧
    ∃ t, countsOfBin exWt exWt.npreds exWt.wnpreds 0 = .ok t ∧ t.1.1 = 0 ∧ t.1.2 = 1 := by
  have hok : exWt.Ok := by
    refine ⟨⟨rfl, fun _ => ⟨by decide, by decide⟩⟩, rfl, rfl, rfl, ?_, rfl, rfl, ?_, ?_⟩
    · intro c hc; simp [exWt] at hc; subst hc; rfl
    · intro r hr; simp [exWt] at hr; subst hr; decide
    · intro w hw; simp [exWt] at hw
  refine ⟨hok, _, countsOfBin_ok hok (by decide), ?_, ?_⟩
  · simp [trueAt, SrcMap.plane, SrcMap.at', exWt, val]
  · simp [trueWtAt, SrcMap.wplane, SrcMap.at', SrcMap.wt, Geom.kmin, exWt, val]

end Verif.Drm
