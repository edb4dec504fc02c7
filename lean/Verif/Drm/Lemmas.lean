import Verif.Drm.Model
import Verif.Edisp.Lemmas
import Mathlib.Tactic.FieldSimp
import Mathlib.Tactic.NormNum
set_option linter.unusedVariables false
set_option linter.unusedSimpArgs false
namespace Verif.Drm

open Verif.Vec Verif.Edisp
open scoped BigOperators

/-- Matrix entry for true bin `k`, measured bin `kp`. -/
noncomputable def Rsp.entry (d : Rsp) (k kp : Nat) : ℝ := val (d.rows[k]?.getD []) kp

/-- Table of the right size. -/
structure Rsp.Sized (d : Rsp) : Prop where
  rows : d.rows.length = d.ntrue
  cols : ∀ r ∈ d.rows, r.length = d.nmeas

theorem entry_ok {d : Rsp} (h : d.Sized) {k kp : Nat} (hk : k < d.ntrue) (hkp : kp < d.nmeas) :
    ∃ r, vget d.rows k = .ok r ∧ vget r kp = .ok (d.entry k kp) := by
  have hk' : k < d.rows.length := by rw [h.rows]; exact hk
  refine ⟨d.rows[k], vget_lt _ _ hk', ?_⟩
  rw [vget_val (by rw [h.cols _ (List.getElem_mem hk')]; exact hkp)]
  simp [Rsp.entry, List.getElem?_eq_getElem hk']

theorem extendStep_ok (d : Rsp) {c : List ℝ} (h : 2 ≤ c.length) :
    ∃ c', extendStep d c = .ok c' ∧ c'.length = c.length + 2 ∧
      (∀ i < c.length, val c' (i + 1) = val c i) ∧
      val c' 0 = extrapolateLo d (val c 0) (val c 1) ∧
      val c' (c.length + 1) = extrapolateHi d (val c (c.length - 2)) (val c (c.length - 1)) := by
  have e1 : val (extrapolateLo d (val c 0) (val c 1) :: c) (c.length + 1 - 2) =
      val c (c.length - 2) := by
    rw [show c.length + 1 - 2 = (c.length - 2) + 1 by omega, val_cons_succ]
  have e2 : val (extrapolateLo d (val c 0) (val c 1) :: c) (c.length + 1 - 1) =
      val c (c.length - 1) := by
    rw [show c.length + 1 - 1 = (c.length - 1) + 1 by omega, val_cons_succ]
  refine ⟨extrapolateLo d (val c 0) (val c 1) :: c ++
    [extrapolateHi d (val c (c.length - 2)) (val c (c.length - 1))], ?_, by simp, ?_, ?_, ?_⟩
  · unfold extendStep
    rw [vget_val (by omega), Res.bind_ok, vget_val (by omega), Res.bind_ok]
    simp only [List.length_cons]
    rw [vget_val (by simp), Res.bind_ok, vget_val (by simp), Res.bind_ok, e1, e2]
  · intro i hi
    unfold val
    rw [List.getElem?_append_left (by simp; omega)]
    simp
  · rfl
  · unfold val
    rw [List.getElem?_append_right (by simp)]
    simp

/-- The extension loop. -/
theorem extend_ok (d : Rsp) {c : List ℝ} (n : Nat) (h : 2 ≤ c.length ∨ n = 0) :
    ∃ ext, loop (fun _ c => extendStep d c) 0 n c = .ok ext ∧ ext.length = c.length + 2 * n ∧
      ∀ i < c.length, val ext (n + i) = val c i := by
  rcases h with h | h
  · obtain ⟨ext, h1, h2, h3⟩ := loop_inv (body := fun _ c => extendStep d c) (lo := 0) (n := n)
      (s := c) (fun m e => e.length = c.length + 2 * m ∧ ∀ i < c.length, val e (m + i) = val c i)
      ⟨by omega, fun i _ => by rw [Nat.zero_add]⟩
      (by
        rintro m e _ hm ⟨i1, i2⟩
        obtain ⟨e', g1, g2, g3, -, -⟩ := extendStep_ok d (c := e) (by omega)
        refine ⟨e', g1, by omega, ?_⟩
        intro i hi
        rw [show m + 1 + i = m + i + 1 by omega, g3 _ (by omega), i2 i hi])
    rw [Nat.zero_add] at h2 h3
    exact ⟨ext, h1, h2, h3⟩
  · subst h
    exact ⟨c, rfl, by omega, fun i _ => by rw [Nat.zero_add]⟩

theorem convolve_ok {d : Rsp} (hd : d.Sized) {c ext : List ℝ} (hc : c.length = d.nmeas)
    (he : loop (fun _ c => extendStep d c) 0 d.bins c = .ok ext)
    (hl : ext.length = d.ntrue) :
    convolve d c = .ok ((List.range d.nmeas).map (fun kp =>
      ∑ k ∈ Finset.range d.ntrue, val ext k * d.entry k kp)) := by
  unfold convolve
  rw [if_neg (by simpa using hc), he, Res.bind_ok]
  apply mapM_ok
  intro kp hkp
  rw [List.mem_range] at hkp
  rw [loop_sum (fun k => val ext k * d.entry k kp)]
  · simp
  · intro k acc _ hk
    rw [Nat.zero_add] at hk
    obtain ⟨r, r1, r2⟩ := entry_ok hd hk hkp
    rw [vget_val (by omega), Res.bind_ok, r1, Res.bind_ok, r2, Res.bind_ok]

/-! ### the cache -/

/-- True counts of measured bin `k` of a map. -/
noncomputable def trueAt (s : SrcMap ℝ) (k : Nat) : ℝ :=
  s.plane (k + s.eb) * (val s.specWts (k + s.eb)).1 +
    s.plane (k + s.eb + 1) * (val s.specWts (k + s.eb)).2

/-- What the code stores as weighted true counts. -/
noncomputable def trueWtAt (s : SrcMap ℝ) (k : Nat) : ℝ :=
  s.wplane k (s.kmin k) * (val s.specWts (k + s.eb)).1 +
    s.wplane k (s.kmin k + 1) * (val s.specWts (k + s.eb)).2

/-- Measured counts before the rescaling method's convolution. -/
noncomputable def measAt (s : SrcMap ℝ) (k : Nat) : ℝ × ℝ :=
  if 0 < s.ev then (s.bin s.specWts (s.disp k) k, s.wbin s.specWts (s.disp k) k)
  else (trueAt s k, trueWtAt s k)

theorem countsOfBin_ok {s : SrcMap ℝ} (h : s.Ok) {k : Nat} (hk : k < s.nebins) :
    countsOfBin s s.npreds s.wnpreds k = .ok ((trueAt s k, trueWtAt s k), measAt s k) := by
  have hpos : 0 < s.nTrue := by unfold Geom.nTrue; split <;> omega
  have hnp : s.npreds.length = s.nEnergies := by simp [SrcMap.npreds]
  have hnpv : ∀ m < s.nEnergies, val s.npreds m = s.plane m := fun m hm => val_map_range _ hm
  have hE : s.nEnergies = s.nebins + 1 + 2 * s.eb := rfl
  have hwts := h.wts
  have hrow : s.wnpreds[k]'(by simpa [SrcMap.wnpreds] using hk) = s.wrow k := by
    simp [SrcMap.wnpreds]
  have hrl : (s.wrow k).length = s.nTrue := by simp [SrcMap.wrow]
  have hr0 : (s.wrow k)[0]'(by omega) = (s.wplane k (s.kmin k), s.wplane k (s.kmin k + 1)) := by
    simp [SrcMap.wrow]
  unfold countsOfBin
  rw [vat_ok (by simpa [SrcMap.wnpreds] using hk), Res.bind_ok, hrow, vat_ok (by omega),
    Res.bind_ok, hr0]
  have ht : npredContribution s.npreds (s.wplane k (s.kmin k), s.wplane k (s.kmin k + 1))
      s.specWts 1 (k + s.eb) = .ok (trueAt s k, trueWtAt s k) := by
    unfold npredContribution
    rw [vget_val (by omega), Res.bind_ok, vget_val (by omega), Res.bind_ok,
      vget_val (by omega), Res.bind_ok, hnpv _ (by omega), hnpv _ (by omega)]
    simp [trueAt, trueWtAt]
  rw [ht, Res.bind_ok]
  by_cases hev : 0 < s.ev
  · obtain ⟨col, c1, c2, c3, c4⟩ := consts_ok h hk
    have hn := npredCounts_ok h h.wts hk (col := col) (by omega)
    unfold npredCounts at hn
    rw [vat_ok (by simpa [SrcMap.wnpreds] using hk), Res.bind_ok, hrow, if_pos hev] at hn
    rw [if_pos hev, c1, Res.bind_ok]
    simp only
    rw [hn, Res.bind_ok]
    have hb3 : s.bin s.specWts (val col) k = s.bin s.specWts (s.disp k) k := by
      apply Finset.sum_congr rfl
      intro i hi
      rw [c3 i (Finset.mem_range.1 hi)]
    have hb4 : s.wbin s.specWts (val col) k = s.wbin s.specWts (s.disp k) k := by
      apply Finset.sum_congr rfl
      intro i hi
      rw [c3 i (Finset.mem_range.1 hi)]
    rw [hb3, hb4]
    simp [measAt, hev]
  · rw [if_neg hev]; simp [measAt, hev]

/-- What `xi` and `kref` of bin `i` must be. -/
structure GoodXi (T M : List ℝ) (i : Nat) (x : ℝ) (kr : Int) : Prop where
  own : 0 < val T i → x = val M i / val T i ∧ kr = -1
  none : val T i ≤ 0 → (∀ j < i, val T j ≤ 0) → x = 1 ∧ kr = -1
  borrow : val T i ≤ 0 → (∃ j < i, 0 < val T j) →
    0 ≤ kr ∧ kr < i ∧ 0 < val T kr.toNat ∧ x = val M i / val T kr.toNat

/-- Bin whose true counts `xi` multiplies. -/
def refBin (kr : Int) (i : Nat) : Nat := if 0 ≤ kr then kr.toNat else i

structure XiInv (s : SrcMap ℝ) (T M W mw : List ℝ) (m : Nat) (st : XiState) : Prop where
  lt : st.kref < m
  ge : -1 ≤ st.kref
  noneYet : st.kref < 0 → ∀ i < m, val T i ≤ 0
  pos : 0 ≤ st.kref → 0 < val T st.kref.toNat
  xil : st.xi.length = m
  krl : st.krefs.length = m
  mwl : st.measWt.length = mw.length
  good : ∀ i < m, GoodXi T M i (val st.xi i) (val st.krefs i)
  wt : s.ev < 0 → ∀ i < m, val st.measWt i = val st.xi i * val W (refBin (val st.krefs i) i)
  wt' : ¬ s.ev < 0 → st.measWt = mw

theorem val_append_left {α : Type} [Zero α] {a b : List α} {i : Nat} (h : i < a.length) :
    val (a ++ b) i = val a i := by
  unfold val; rw [List.getElem?_append_left h]

theorem val_append_last {α : Type} [Zero α] {a : List α} {x : α} {i : Nat} (h : a.length = i) :
    val (a ++ [x]) i = x := by
  subst h; simp [val]

theorem xiStep_ok {s : SrcMap ℝ} {T M W mw : List ℝ} {n m : Nat} {st : XiState}
    (hT : T.length = n) (hM : M.length = n) (hW : W.length = n) (hmw : mw.length = n)
    (h0 : s.ev < 0 → 0 < val T 0) (hm : m < n) (hst : XiInv s T M W mw m st) :
    ∃ st', xiStep s T M W m st = .ok st' ∧ XiInv s T M W mw (m + 1) st' := by
  have hlt := hst.lt
  have hge := hst.ge
  -- the choice
  have hch : ∃ x kr kref, xiChoice T M st.kref m = .ok (x, kr, kref) ∧ GoodXi T M m x kr ∧
      kref < (m + 1 : Nat) ∧ -1 ≤ kref ∧ (kref < 0 → ∀ i < m + 1, val T i ≤ 0) ∧
      (0 ≤ kref → 0 < val T kref.toNat) ∧ (0 ≤ kref → kref.toNat = refBin kr m) := by
    unfold xiChoice
    rw [vget_val (by omega), Res.bind_ok, vget_val (by omega), Res.bind_ok]
    by_cases hp : 0 < val T m
    · rw [if_pos hp]
      refine ⟨_, _, _, rfl, ⟨fun _ => ⟨rfl, rfl⟩, fun h => absurd hp (not_lt.2 h),
        fun h => absurd hp (not_lt.2 h)⟩, by omega, by omega, by omega, fun _ => ?_, fun _ => ?_⟩
      · simpa using hp
      · simp [refBin]
    · rw [if_neg hp]
      by_cases hk : 0 ≤ st.kref
      · have hpos := hst.pos hk
        rw [if_pos hk, vget_val (by omega), Res.bind_ok]
        refine ⟨_, _, _, rfl, ⟨fun h => absurd h hp, fun _ hn => ?_, fun _ _ => ⟨hk, hlt, hpos, rfl⟩⟩,
          by omega, by omega, by omega, fun _ => hpos, fun _ => ?_⟩
        · exact absurd (hn st.kref.toNat (by omega)) (not_le.2 hpos)
        · simp [refBin, hk]
      · rw [if_neg hk]
        have hnone := hst.noneYet (by omega)
        refine ⟨_, _, _, rfl, ⟨fun h => absurd h hp, fun _ _ => ⟨rfl, rfl⟩, fun _ he => ?_⟩,
          by omega, by omega, fun _ i hi => ?_, fun h => absurd h hk, fun h => absurd h hk⟩
        · obtain ⟨j, hj, hj'⟩ := he
          exact absurd (hnone j hj) (not_le.2 hj')
        · rcases Nat.lt_succ_iff_lt_or_eq.1 hi with h | h
          · exact hnone i h
          · rw [h]; exact not_lt.1 hp
  obtain ⟨x, kr, kref, c1, c2, c3, c4, c5, c6, c7⟩ := hch
  have hgood : ∀ i < m + 1, GoodXi T M i (val (st.xi ++ [x]) i) (val (st.krefs ++ [kr]) i) := by
    intro i hi
    rcases Nat.lt_succ_iff_lt_or_eq.1 hi with h | h
    · rw [val_append_left (by rw [hst.xil]; exact h), val_append_left (by rw [hst.krl]; exact h)]
      exact hst.good i h
    · rw [h, val_append_last hst.xil, val_append_last hst.krl]
      exact c2
  unfold xiStep
  rw [c1, Res.bind_ok]
  simp only
  by_cases hev : s.ev < 0
  · have hk0 : 0 ≤ kref := by
      by_contra hneg
      exact absurd (c5 (by omega) 0 (by omega)) (not_le.2 (h0 hev))
    have hi : asIndex kref = .ok kref.toNat := by unfold asIndex; rw [if_pos hk0]
    have hml : m < st.measWt.length := by rw [hst.mwl]; omega
    rw [if_pos hev, hi, Res.bind_ok, vget_val (by omega), Res.bind_ok, vset_lt _ _ _ hml,
      Res.bind_ok]
    refine ⟨_, rfl, by simpa using c3, c4, c5, c6, by simp [hst.xil], by simp [hst.krl],
      by simp [hst.mwl], hgood, ?_, fun h => absurd hev h⟩
    intro _ i hi
    simp only
    rw [val_set hml]
    rcases Nat.lt_succ_iff_lt_or_eq.1 hi with h | h
    · rw [if_neg (by omega), val_append_left (by rw [hst.xil]; exact h),
        val_append_left (by rw [hst.krl]; exact h)]
      exact hst.wt hev i h
    · rw [if_pos h, h, val_append_last hst.xil, val_append_last hst.krl, c7 hk0]
  · rw [if_neg hev]
    exact ⟨_, rfl, by simpa using c3, c4, c5, c6, by simp [hst.xil], by simp [hst.krl], hst.mwl,
      hgood, fun h => absurd h hev, fun _ => hst.wt' hev⟩

/-- The measured counts before clipping. -/
noncomputable def rawMeas (s : SrcMap ℝ) (d : Rsp) : Res (List ℝ) :=
  measured s.ev d ((List.range d.nmeas).map (trueAt s))
    ((List.range d.nmeas).map (fun k => (measAt s k).1))

theorem updateCache_ok {s : SrcMap ℝ} (h : s.Ok) {d : Rsp} (hn : d.nmeas = s.nebins)
    (h0 : s.ev < 0 → 0 < s.nebins → 0 < trueAt s 0) {raw : List ℝ} (hraw : rawMeas s d = .ok raw)
    (hrl : raw.length = s.nebins) :
    ∃ c, updateCache s d s.npreds s.wnpreds = .ok c ∧
      c.trueC = (List.range s.nebins).map (trueAt s) ∧
      c.trueWt = (List.range s.nebins).map (trueWtAt s) ∧
      c.measC = raw.map (fun x => if x < 0 then 0 else x) ∧
      c.xi.length = s.nebins ∧ c.kref.length = s.nebins ∧
      (∀ i < s.nebins, GoodXi c.trueC c.measC i (val c.xi i) (val c.kref i)) ∧
      c.measWt.length = s.nebins ∧
      (s.ev < 0 → ∀ i < s.nebins,
        val c.measWt i = val c.xi i * val c.trueWt (refBin (val c.kref i) i)) ∧
      (¬ s.ev < 0 → c.measWt = (List.range s.nebins).map (fun k => (measAt s k).2)) := by
  have hrows : (List.range d.nmeas).mapM (countsOfBin s s.npreds s.wnpreds) =
      .ok ((List.range d.nmeas).map (fun k => ((trueAt s k, trueWtAt s k), measAt s k))) := by
    apply mapM_ok
    intro k hk
    rw [List.mem_range] at hk
    exact countsOfBin_ok h (by omega)
  set T := (List.range s.nebins).map (trueAt s) with hTdef
  set W := (List.range s.nebins).map (trueWtAt s) with hWdef
  set M := raw.map (fun x => if x < 0 then 0 else x) with hMdef
  set mw := (List.range s.nebins).map (fun k => (measAt s k).2) with hmwdef
  have hTl : T.length = s.nebins := by simp [hTdef]
  have hWl : W.length = s.nebins := by simp [hWdef]
  have hMl : M.length = s.nebins := by simp [hMdef, hrl]
  have hmwl : mw.length = s.nebins := by simp [hmwdef]
  have hloop : ∃ st, loop (xiStep s T M W) 0 s.nebins ⟨-1, [], [], mw⟩ = .ok st ∧
      XiInv s T M W mw s.nebins st := by
    obtain ⟨st, l1, l2⟩ := loop_inv (body := xiStep s T M W) (lo := 0) (n := s.nebins)
      (s := ⟨-1, [], [], mw⟩) (fun m st => XiInv s T M W mw m st)
      ⟨by simp, by simp, fun _ i hi => absurd hi (Nat.not_lt_zero _), fun hh => by simp at hh,
        rfl, rfl, rfl, fun i hi => absurd hi (Nat.not_lt_zero _),
        fun _ i hi => absurd hi (Nat.not_lt_zero _), fun _ => rfl⟩
      (fun m st _ hm hst => xiStep_ok hTl hMl hWl hmwl
        (fun hev => by
          rw [hTdef, val_map_range _ (by omega)]
          exact h0 hev (by omega)) (by omega) hst)
    rw [Nat.zero_add] at l2
    exact ⟨st, l1, l2⟩
  obtain ⟨st, l1, l2⟩ := hloop
  refine ⟨⟨T, M, st.xi, st.krefs, W, st.measWt⟩, ?_, rfl, rfl, rfl, l2.xil, l2.krl, l2.good,
    by rw [l2.mwl, hmwl], l2.wt, l2.wt'⟩
  unfold updateCache
  rw [hrows, Res.bind_ok]
  simp only [List.map_map, Function.comp_def]
  have hr : measured s.ev d ((List.range d.nmeas).map (fun k => trueAt s k))
      ((List.range d.nmeas).map (fun k => (measAt s k).1)) = .ok raw := hraw
  rw [hr, Res.bind_ok, hn]
  have := l1
  simp only [hTdef, hWdef, hMdef, hmwdef] at this
  rw [this, Res.bind_ok]

theorem withCache_ok {s : SrcMap ℝ} (h : s.Ok) {c : Cache} (h1 : c.xi.length = s.nebins)
    (h2 : c.kref.length = s.nebins)
    (h3 : ∀ i < s.nebins, GoodXi c.trueC c.measC i (val c.xi i) (val c.kref i)) :
    (withCache s c).Ok := by
  refine ⟨h.fits, h.model, h.wts, h.cols, h.col, h1, h2, ?_, h.weights⟩
  intro r hr
  obtain ⟨i, hi, rfl⟩ := mem_val hr
  have hi' : i < s.nebins := by
    have : i < c.kref.length := hi
    omega
  have g := h3 i hi'
  change val c.kref i < (s.nebins : Int)
  rcases lt_or_ge 0 (val c.trueC i) with hp | hp
  · rw [(g.own hp).2]; omega
  · by_cases he : ∃ j < i, 0 < val c.trueC j
    · have := (g.borrow hp he).2.1; omega
    · rw [(g.none hp (fun j hj => not_lt.1 (fun hlt => he ⟨j, hj, hlt⟩))).2]; omega

end Verif.Drm
