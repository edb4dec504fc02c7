import Verif.Edisp.Spec
import Verif.Energy.Lemmas
import Mathlib.Algebra.BigOperators.Ring.Finset
import Mathlib.Algebra.BigOperators.Intervals
import Mathlib.Algebra.BigOperators.Pi
import Mathlib.Tactic.Ring
import Mathlib.Tactic.Linarith
set_option linter.unusedVariables false
set_option linter.unusedSimpArgs false
set_option linter.unusedSectionVars false
namespace Verif.Edisp

open Verif.Vec
open scoped BigOperators

variable {K : Type}

/-- Number of true-energy bins entering a measured bin. -/
def Geom.nTrue (g : Geom) : Nat := if 0 < g.ev then 2 * g.ev.toNat + 1 else 1

/-- First map plane entering measured bin `k`, in the weighted npreds. -/
def Geom.kmin (g : Geom) (k : Nat) : Nat := k + g.eb - g.ev.toNat

theorem vat_ok {α : Type} {l : List α} {i : Nat} (h : i < l.length) : vat l i = .ok l[i] := by
  simp [vat, List.getElem?_eq_getElem h]

theorem range_ok {g : Geom} (h : g.Fits) (k : Nat) :
    getEdispRange g k = .ok (if 0 < g.ev then (g.kmin k, g.kmin k + g.nTrue) else (k, k + 1)) := by
  unfold getEdispRange
  by_cases hev : 0 < g.ev
  · have := h.wide hev
    have e1 : asIndex (k + ((g.eb : Int) - g.ev)) = .ok (g.kmin k) := by
      unfold asIndex Geom.kmin; rw [if_pos (by omega)]; congr 1; omega
    have e2 : asIndex (k + 1 + ((g.eb : Int) + g.ev)) = .ok (g.kmin k + g.nTrue) := by
      unfold asIndex Geom.kmin Geom.nTrue; rw [if_pos (by omega), if_pos hev]; congr 1; omega
    rw [if_pos hev, if_pos hev, e1, Res.bind_ok, e2, Res.bind_ok]
  · rw [if_neg hev, if_neg hev]

theorem npredRange_ok [Field K] [LinearOrder K] {s : SrcMap K} (h : s.toGeom.Fits) (k : Nat) :
    npredRange s k = .ok (s.kmin k, s.kmin k + s.nTrue) := by
  unfold npredRange
  rw [range_ok h]
  by_cases hev : 0 < s.ev
  · rw [if_pos hev, Res.bind_ok]
    exact if_neg (by omega)
  · rw [if_neg hev, Res.bind_ok]
    refine (if_pos (by omega)).trans ?_
    simp only [Geom.kmin, Geom.nTrue, hev, if_false]
    congr 2 <;> omega

section
variable [Field K] [LinearOrder K]

/-- First plane read for measured bin `k` of the map. -/
def SrcMap.first (s : SrcMap K) (k : Nat) : Nat :=
  if s.ev < 0 ∧ 0 ≤ val s.kref k then (val s.kref k).toNat + s.eb else s.kmin k

/-- Dispersion factors of bin `k`. -/
def SrcMap.disp (s : SrcMap K) (k i : Nat) : K :=
  if 0 < s.ev then val (s.drmCols[k]?.getD []) (k + s.drmBins - s.ev.toNat + i)
  else if s.ev < 0 then val s.xi k else 1

theorem val_drop_take {α : Type} [Zero α] (v : List α) (a n i : Nat) (h : i < n) :
    val ((v.drop a).take n) i = val v (a + i) := by
  unfold val; rw [List.getElem?_take, if_pos h, List.getElem?_drop]

theorem consts_ok {s : SrcMap K} (h : s.Ok) {k : Nat} (hk : k < s.nebins) :
    ∃ col, getEdispConstants s k = .ok (s.first k, s.first k + s.nTrue, col) ∧
      col.length = s.nTrue ∧ (∀ i < s.nTrue, val col i = s.disp k i) ∧
      s.first k + s.nTrue ≤ s.nebins + 2 * s.eb := by
  unfold getEdispConstants
  rw [range_ok h.fits]
  rcases lt_trichotomy s.ev 0 with hev | hev | hev
  · have hn : s.nTrue = 1 := by simp [Geom.nTrue, not_lt.2 hev.le]
    have hkr : k < s.kref.length := by rw [h.kref]; exact hk
    have hkx : k < s.xi.length := by rw [h.xi]; exact hk
    have hlt := h.krefLt _ (val_mem hkr)
    rw [if_neg (by omega), Res.bind_ok]
    simp only
    rw [if_neg (by omega), if_pos hev, vget_val hkr, Res.bind_ok, vget_val hkx, Res.bind_ok, hn]
    by_cases hr : 0 ≤ val s.kref k
    · have hf : s.first k = (val s.kref k).toNat + s.eb := by simp [SrcMap.first, hev, hr]
      rw [if_pos hr, hf]
      refine ⟨_, rfl, rfl, ?_, by omega⟩
      intro i hi
      have : i = 0 := by omega
      subst this
      simp [SrcMap.disp, not_lt.2 hev.le, hev]
    · have hf : s.first k = k + s.eb := by
        simp only [SrcMap.first, hr, and_false, if_false, Geom.kmin]; omega
      rw [if_neg hr, hf]
      refine ⟨[val s.xi k], ?_, rfl, ?_, by omega⟩
      · congr 2; congr 1; omega
      · intro i hi
        have : i = 0 := by omega
        subst this
        simp [SrcMap.disp, not_lt.2 hev.le, hev]
  · have hn : s.nTrue = 1 := by simp [Geom.nTrue, hev]
    have hf : s.first k = k + s.eb := by simp [SrcMap.first, hev, Geom.kmin]
    rw [if_neg (by omega), Res.bind_ok]
    simp only
    rw [if_pos hev, hn, hf]
    refine ⟨[1], ?_, rfl, ?_, by omega⟩
    · congr 2; congr 1; omega
    · intro i hi
      have : i = 0 := by omega
      subst this
      simp [SrcMap.disp, hev]
  · have hw := h.fits.wide hev
    have hf : s.first k = s.kmin k := by simp [SrcMap.first, not_lt.2 hev.le]
    have hkc : k < s.drmCols.length := by rw [h.cols]; exact hk
    have hcl := h.col _ (List.getElem_mem hkc)
    have hoff := h.fits.off
    rw [if_pos hev, Res.bind_ok]
    simp only
    rw [if_neg (by omega), if_neg (by omega), vget_lt _ _ hkc, Res.bind_ok, hf]
    have hn : s.nTrue = 2 * s.ev.toNat + 1 := by simp [Geom.nTrue, hev]
    have hkm : s.kmin k = k + s.eb - s.ev.toNat := rfl
    have hcopy : copyRange s.drmCols[k] ((s.kmin k : Int) - s.off)
        (((s.kmin k + s.nTrue : Nat) : Int) - s.off) =
        .ok ((s.drmCols[k].drop (k + s.drmBins - s.ev.toNat)).take s.nTrue) := by
      unfold copyRange
      rw [if_pos ⟨by omega, by omega, by omega⟩]
      congr 3 <;> omega
    rw [hcopy, Res.bind_ok]
    refine ⟨_, rfl, ?_, ?_, by omega⟩
    · rw [List.length_take, List.length_drop, hcl]; omega
    · intro i hi
      rw [val_drop_take _ _ _ _ hi]
      simp [SrcMap.disp, hev, List.getElem?_eq_getElem hkc]

/-- Map value of plane `k`, pixel `p`. -/
def SrcMap.at' (s : SrcMap K) (k p : Nat) : K := val s.model (k * s.npix + p)

/-- Predicted counts of pixel `p` in measured bin `k` for spectral weights `wts`. -/
def SrcMap.pix (s : SrcMap K) (wts : List (K × K)) (k p : Nat) : K :=
  ∑ i ∈ Finset.range s.nTrue, s.disp k i *
    (s.at' (s.first k + i) p * (val wts (s.first k + i)).1 +
      s.at' (s.first k + i + 1) p * (val wts (s.first k + i)).2)

theorem nTrue_of_nonpos {g : Geom} (h : ¬ 0 < g.ev) : g.nTrue = 1 := by simp [Geom.nTrue, h]

theorem modelCounts_ok {s : SrcMap K} (h : s.Ok) {wts : List (K × K)}
    (hw : wts.length = s.nebins + 2 * s.eb) {k p : Nat} (hk : k < s.nebins) (hp : p < s.npix) :
    modelCounts s wts k p = .ok (s.pix wts k p) := by
  obtain ⟨col, h1, h2, h3, h4⟩ := consts_ok h hk
  unfold modelCounts
  rw [h1, Res.bind_ok]
  have hm : ∀ i, i < s.nTrue + 1 → (s.first k + i) * s.npix + p < s.model.length := by
    intro i hi
    rw [h.model]
    exact idx_lt hp (by unfold Geom.nEnergies; omega)
  simp only
  by_cases hev : 0 < s.ev
  · rw [if_pos hev]
    unfold modelCountsEdisp
    rw [Nat.add_sub_cancel_left,
      loop_sum (fun i => s.disp k i *
        (s.at' (s.first k + i) p * (val wts (s.first k + i)).1 +
          s.at' (s.first k + i + 1) p * (val wts (s.first k + i)).2))]
    · simp [SrcMap.pix]
    · intro i acc _ hi
      rw [Nat.zero_add] at hi
      simp only
      rw [vget_val (hm i (by omega)), Res.bind_ok, vget_val (by omega), Res.bind_ok,
        vget_val (by have := hm (i + 1) (by omega); rwa [← Nat.add_assoc] at this), Res.bind_ok,
        vget_val (by omega), Res.bind_ok, h3 i hi]
      rfl
  · have hn := nTrue_of_nonpos hev
    rw [if_neg hev, vget_val (by omega), Res.bind_ok]
    unfold modelCountsContribution
    have e1 := hm 0 (by omega)
    have e2 := hm 1 (by omega)
    rw [Nat.add_zero] at e1
    have e3 : s.first k * s.npix + p + s.npix = (s.first k + 1) * s.npix + p := by ring
    simp only
    rw [vget_val e1, Res.bind_ok, vget_val (by omega), Res.bind_ok, e3, vget_val e2, Res.bind_ok,
      h3 0 (by omega)]
    simp [SrcMap.pix, hn, SrcMap.at']

theorem weightVal_ok {s : SrcMap K} (h : s.Ok) {k p : Nat} (hk : k < s.nebins) (hp : p < s.npix) :
    weightVal s k p = .ok (s.wt k p) := by
  unfold weightVal SrcMap.wt
  cases hw : s.weights with
  | none => rfl
  | some w => exact vget_val (by rw [h.weights w hw]; exact idx_lt hp hk)

/-- Plane sums. -/
def SrcMap.plane (s : SrcMap K) (k : Nat) : K := ∑ p ∈ Finset.range s.npix, s.at' k p

/-- Weighted plane sums: plane `k` with the weights of measured bin `km`. -/
def SrcMap.wplane (s : SrcMap K) (km k : Nat) : K :=
  ∑ p ∈ Finset.range s.npix, s.wt km p * s.at' k p

theorem addWeighted_ok {s : SrcMap K} (h : s.Ok) {w : K} {p kmin n : Nat} {row : List (K × K)}
    (hp : p < s.npix) (hn : row.length = n) (hk : kmin + n < s.nEnergies) :
    ∃ row', addWeighted s w p kmin n row = .ok row' ∧ row'.length = n ∧
      ∀ i < n, val row' i = val row i +
        (w * s.at' (kmin + i) p, w * s.at' (kmin + i + 1) p) := by
  obtain ⟨r, h1, h2, h3⟩ := loop_add (v := row) (lo := 0) (n := n)
    (body := fun i row => do
      let a ← vget s.model ((kmin + i) * s.npix + p)
      let b ← vget s.model ((kmin + i) * s.npix + p + s.npix)
      let r ← vat row i
      vset row i (r + (w * a, w * b)))
    (fun i => (w * s.at' (kmin + i) p, w * s.at' (kmin + i + 1) p)) (by omega)
    (by
      intro i r _ hi hl _
      have e3 : (kmin + i) * s.npix + p + s.npix = (kmin + i + 1) * s.npix + p := by ring
      rw [vget_val (by rw [h.model]; exact idx_lt hp (by omega)), Res.bind_ok, e3,
        vget_val (by rw [h.model]; exact idx_lt hp (by omega)), Res.bind_ok,
        vat_ok (by omega), Res.bind_ok, vset_lt _ _ _ (by omega), val_lt (l := r) (by omega)]
      rfl)
  refine ⟨r, h1, by omega, ?_⟩
  intro i hi
  rw [h3, if_pos (by omega)]

/-- Row of weighted npreds of measured bin `k`. -/
def SrcMap.wrow (s : SrcMap K) (k : Nat) : List (K × K) :=
  (List.range s.nTrue).map (fun i =>
    (s.wplane k (s.kmin k + i), s.wplane k (s.kmin k + i + 1)))

theorem kmin_bound {s : SrcMap K} (h : s.Ok) {k : Nat} (hk : k < s.nebins) :
    s.kmin k + s.nTrue ≤ s.nebins + 2 * s.eb := by
  by_cases hev : 0 < s.ev
  · have := h.fits.wide hev
    unfold Geom.kmin Geom.nTrue; rw [if_pos hev]; omega
  · unfold Geom.kmin; rw [nTrue_of_nonpos hev]; omega

theorem planeNpred_ok {s : SrcMap K} (h : s.Ok) {k : Nat} (hk : k < s.nEnergies) :
    planeNpred s k = .ok (s.plane k,
      if s.eb ≤ k ∧ k < s.eb + s.nebins then s.wrow (k - s.eb) else []) := by
  unfold planeNpred
  by_cases hm : s.eb ≤ k ∧ k < s.eb + s.nebins
  · rw [if_pos hm, if_pos hm, npredRange_ok h.fits, Res.bind_ok]
    simp only
    rw [Nat.add_sub_cancel_left]
    have hkb := kmin_bound h (k := k - s.eb) (by omega)
    obtain ⟨⟨a, row⟩, h1, h2, h3, h4⟩ := loop_inv
      (body := fun j (st : K × List (K × K)) => do
        let m0 ← vget s.model (k * s.npix + j)
        let w ← weightVal s (k - s.eb) j
        let row ← addWeighted s w j (s.kmin (k - s.eb)) s.nTrue st.2
        Res.ok (st.1 + m0, row)) (lo := 0) (n := s.npix)
      (s := ((0 : K), List.replicate s.nTrue ((0 : K), (0 : K))))
      (fun j st => st.1 = ∑ p ∈ Finset.range j, s.at' k p ∧ st.2.length = s.nTrue ∧
        ∀ i < s.nTrue, val st.2 i =
          (∑ p ∈ Finset.range j, s.wt (k - s.eb) p * s.at' (s.kmin (k - s.eb) + i) p,
           ∑ p ∈ Finset.range j, s.wt (k - s.eb) p * s.at' (s.kmin (k - s.eb) + i + 1) p))
      ⟨by simp, by simp, by
        intro i hi
        rw [val_lt (by simpa using hi)]
        simp⟩
      (by
        rintro j ⟨a, row⟩ _ hj ⟨i1, i2, i3⟩
        rw [Nat.zero_add] at hj
        simp only at i1 i2 i3
        obtain ⟨row', e1, e2, e3⟩ := addWeighted_ok h (w := s.wt (k - s.eb) j) hj i2
          (kmin := s.kmin (k - s.eb)) (by unfold Geom.nEnergies; omega)
        rw [vget_val (by rw [h.model]; exact idx_lt hj hk), Res.bind_ok,
          weightVal_ok h (by omega) hj, Res.bind_ok, e1, Res.bind_ok]
        refine ⟨_, rfl, ?_, e2, ?_⟩
        · simp only [Finset.sum_range_succ, i1]; rfl
        · intro i hi
          rw [e3 i hi, i3 i hi, Finset.sum_range_succ, Finset.sum_range_succ]
          rfl)
    rw [h1, Nat.zero_add] at *
    simp only at h2 h3 h4
    congr 1
    refine Prod.ext h2 ?_
    apply ext_val
    · simp [SrcMap.wrow, h3]
    · intro i hi
      simp only at hi
      rw [h4 i (by omega), SrcMap.wrow, val_map_range _ (by omega)]
      rfl
  · rw [if_neg hm, if_neg hm]
    obtain ⟨⟨a, row⟩, h1, h2, h3⟩ := loop_inv
      (body := fun j (st : K × List (K × K)) => do
        let m0 ← vget s.model (k * s.npix + j)
        Res.ok (st.1 + m0, st.2)) (lo := 0) (n := s.npix) (s := ((0 : K), ([] : List (K × K))))
      (fun j st => st.1 = ∑ p ∈ Finset.range j, s.at' k p ∧ st.2 = [])
      ⟨by simp, rfl⟩
      (by
        rintro j ⟨a, row⟩ _ hj ⟨i1, i2⟩
        rw [Nat.zero_add] at hj
        simp only at i1 i2
        rw [vget_val (by rw [h.model]; exact idx_lt hj hk), Res.bind_ok]
        refine ⟨_, rfl, ?_, i2⟩
        simp only [Finset.sum_range_succ, i1]; rfl)
    rw [h1]
    rw [Nat.zero_add] at h2
    simp only at h2 h3
    rw [h2, h3]; rfl

/-- `m_npreds` and `m_weighted_npreds`. -/
def SrcMap.npreds (s : SrcMap K) : List K := (List.range s.nEnergies).map s.plane
def SrcMap.wnpreds (s : SrcMap K) : List (List (K × K)) := (List.range s.nebins).map s.wrow

theorem computeNpreds_ok {s : SrcMap K} (h : s.Ok) :
    computeNpreds s = .ok (s.npreds, s.wnpreds) := by
  unfold computeNpreds
  rw [mapM_ok (planeNpred s) (fun k => (s.plane k,
      if s.eb ≤ k ∧ k < s.eb + s.nebins then s.wrow (k - s.eb) else []))
    _ (fun k hk => planeNpred_ok h (List.mem_range.1 hk)), Res.bind_ok,
    mapM_ok _ (fun k => s.wrow k), Res.bind_ok]
  · simp [SrcMap.npreds, SrcMap.wnpreds, Function.comp_def]
  · intro k hk
    rw [List.mem_range] at hk
    rw [vget_lt _ _ (by simp [Geom.nEnergies]; omega), Res.bind_ok]
    simp only [List.getElem_map, List.getElem_range]
    rw [if_pos (by omega), Nat.add_sub_cancel]

/-- Predicted counts of a bin from the plane sums `np` with dispersion factors `c`. -/
def SrcMap.bin (s : SrcMap K) (wts : List (K × K)) (c : Nat → K) (k : Nat) : K :=
  ∑ i ∈ Finset.range s.nTrue, c i *
    (s.plane (s.first k + i) * (val wts (s.first k + i)).1 +
      s.plane (s.first k + i + 1) * (val wts (s.first k + i)).2)

/-- Weighted predicted counts of a bin, as the code combines them: the weighted plane
sums of the planes around bin `k` with the spectral weights of the planes read. -/
def SrcMap.wbin (s : SrcMap K) (wts : List (K × K)) (c : Nat → K) (k : Nat) : K :=
  ∑ i ∈ Finset.range s.nTrue, c i *
    (s.wplane k (s.kmin k + i) * (val wts (s.first k + i)).1 +
      s.wplane k (s.kmin k + i + 1) * (val wts (s.first k + i)).2)

theorem npredCounts_ok {s : SrcMap K} (h : s.Ok) {wts : List (K × K)} {col : List K}
    (hw : wts.length = s.nebins + 2 * s.eb) {k : Nat} (hk : k < s.nebins)
    (hcol : s.nTrue ≤ col.length) :
    npredCounts s s.npreds s.wnpreds wts col k (s.first k) (s.first k + s.nTrue) =
      .ok (s.bin wts (val col) k, s.wbin wts (val col) k) := by
  obtain ⟨_, -, -, -, h4⟩ := consts_ok h hk
  have hnp : s.npreds.length = s.nEnergies := by simp [SrcMap.npreds]
  have hnpv : ∀ m < s.nEnergies, val s.npreds m = s.plane m := fun m hm => val_map_range _ hm
  unfold npredCounts
  rw [vat_ok (by simpa [SrcMap.wnpreds] using hk), Res.bind_ok]
  have hrow : s.wnpreds[k]'(by simpa [SrcMap.wnpreds] using hk) = s.wrow k := by
    simp [SrcMap.wnpreds]
  rw [hrow]
  have hrl : (s.wrow k).length = s.nTrue := by simp [SrcMap.wrow]
  have hrv : ∀ i < s.nTrue, val (s.wrow k) i =
      (s.wplane k (s.kmin k + i), s.wplane k (s.kmin k + i + 1)) := fun i hi => val_map_range _ hi
  have hE : s.nEnergies = s.nebins + 1 + 2 * s.eb := rfl
  by_cases hev : 0 < s.ev
  · rw [if_pos hev]
    unfold npredEdisp
    rw [Nat.add_sub_cancel_left,
      loop_sum (fun i => (val col i *
        (s.plane (s.first k + i) * (val wts (s.first k + i)).1 +
          s.plane (s.first k + i + 1) * (val wts (s.first k + i)).2),
        val col i * (s.wplane k (s.kmin k + i) * (val wts (s.first k + i)).1 +
      s.wplane k (s.kmin k + i + 1) * (val wts (s.first k + i)).2)))]
    · simp only [zero_add]
      congr 1
      refine Prod.ext ?_ ?_
      · rw [Prod.fst_sum]; rfl
      · rw [Prod.snd_sum]; rfl
    · intro i acc _ hi
      rw [Nat.zero_add] at hi
      simp only
      rw [vget_val (by omega), Res.bind_ok, vget_val (by omega), Res.bind_ok,
        vget_val (by omega), Res.bind_ok, vget_val (by omega), Res.bind_ok,
        vget_val (by omega), Res.bind_ok, hnpv _ (by omega), hnpv _ (by omega), hrv i hi]
  · have hn := nTrue_of_nonpos hev
    rw [if_neg hev, vat_ok (by omega), Res.bind_ok, vget_val (by omega), Res.bind_ok]
    unfold npredContribution
    have := hrv 0 (by omega)
    rw [val_lt (by omega)] at this
    rw [vget_val (by omega), Res.bind_ok, vget_val (by omega), Res.bind_ok,
      vget_val (by omega), Res.bind_ok, hnpv _ (by omega), hnpv _ (by omega), this]
    simp [SrcMap.bin, SrcMap.wbin, hn]

theorem addAt_ok {v : List K} {k : Nat} {x : K} (h : k < v.length) :
    addAt v k x = .ok (v.set k (val v k + x)) := by
  unfold addAt
  rw [vget_val h, Res.bind_ok, vset_lt _ _ _ h]

open Classical in
theorem updateModelMap_ok {s : SrcMap K} (h : s.Ok) (useMask : Bool) {map : List K}
    (hm : map.length = s.nebins * s.npix) :
    ∃ out, updateModelMap s useMask map = .ok out ∧ out.length = map.length ∧
      ∀ k p, k < s.nebins → p < s.npix → val out (k * s.npix + p) = val map (k * s.npix + p) +
        if s.Masked useMask k p then 0 else s.pix s.specWts k p := by
  obtain ⟨out, h1, h2, h3, -⟩ := loop2_add (v := map) (n := s.npix) (m := s.nebins)
    (body := fun k ipix map => do
      let j := k * s.npix + ipix
      let m ← masked s useMask j
      if m then .ok map
      else do
        let c ← modelCounts s s.specWts k ipix
        addAt map j c)
    (fun k p => if s.Masked useMask k p then 0 else s.pix s.specWts k p) (by omega)
    (by
      intro k p w hk hp hl
      have hidx : k * s.npix + p < w.length := by rw [hl, hm]; exact idx_lt hp hk
      have hmask : masked s useMask (k * s.npix + p) =
          .ok (decide (s.Masked useMask k p)) := by
        unfold masked SrcMap.Masked SrcMap.wt
        cases useMask with
        | false => simp
        | true =>
          cases hw : s.weights with
          | none => simp
          | some w' =>
            simp only [if_true]
            rw [vget_val (by rw [h.weights w' hw]; exact idx_lt hp hk), Res.bind_ok]
            simp
      simp only
      rw [hmask, Res.bind_ok]
      by_cases hmk : s.Masked useMask k p
      · simp only [hmk, decide_true, if_true]
        rw [set_val_self hidx]
      · simp only [hmk, decide_false, if_false, Bool.false_eq_true]
        rw [modelCounts_ok h h.wts hk hp, Res.bind_ok, addAt_ok hidx])
  exact ⟨out, h1, h2, h3⟩

theorem disp_ones {s : SrcMap K} (h : s.Ok) {i : Nat} (hi : i < s.nTrue) :
    val (List.replicate (2 * s.eb + 1) (1 : K)) i = 1 ∧
      s.nTrue ≤ (List.replicate (2 * s.eb + 1) (1 : K)).length := by
  have hn : s.nTrue ≤ 2 * s.eb + 1 := by
    by_cases hev : 0 < s.ev
    · have := h.fits.wide hev
      unfold Geom.nTrue; rw [if_pos hev]; omega
    · rw [nTrue_of_nonpos hev]; omega
  refine ⟨?_, by simpa using hn⟩
  rw [val_lt (by simp; omega)]; simp

/-- `v'` is `v` with `f k` added to element `k`, for `k < n`. -/
def Added (v v' : List K) (n : Nat) (f : Nat → K) : Prop :=
  v'.length = v.length ∧ ∀ k, val v' k = if k < n then val v k + f k else val v k

theorem Added.step {v v' : List K} {n : Nat} {f : Nat → K} {x : K} (h : Added v v' n f)
    (hn : n < v.length) (hx : x = f n) :
    addAt v' n x = .ok (v'.set n (val v' n + x)) ∧ Added v (v'.set n (val v' n + x)) (n + 1) f := by
  have hl : n < v'.length := by rw [h.1]; exact hn
  refine ⟨addAt_ok hl, by simp [h.1], ?_⟩
  intro k
  rw [val_set hl]
  by_cases hk : k = n
  · subst hk; rw [if_pos rfl, if_pos (by omega), h.2, if_neg (by omega), hx]
  · rw [if_neg hk, h.2]
    by_cases hc : k < n
    · rw [if_pos hc, if_pos (by omega)]
    · rw [if_neg hc, if_neg (by omega)]

theorem addFixedNpreds_ok {s : SrcMap K} (h : s.Ok) (subtract : Bool) {sp : Spectra K}
    (h1 : sp.counts.length = s.nebins) (h2 : sp.countsWt.length = s.nebins)
    (h3 : sp.edisp.length = s.nebins) (h4 : sp.edispWt.length = s.nebins) :
    ∃ out, addFixedNpreds s s.npreds s.wnpreds subtract sp = .ok out ∧
      Added sp.counts out.counts s.nebins (fun k =>
        (if subtract then -1 else 1) * s.bin s.specWts (fun _ => 1) k) ∧
      Added sp.countsWt out.countsWt s.nebins (fun k =>
        (if subtract then -1 else 1) * s.wbin s.specWts (fun _ => 1) k) ∧
      Added sp.edisp out.edisp s.nebins (fun k =>
        (if subtract then -1 else 1) * s.bin s.specWts (s.disp k) k) ∧
      Added sp.edispWt out.edispWt s.nebins (fun k =>
        (if subtract then -1 else 1) * s.wbin s.specWts (s.disp k) k) := by
  have hpos : 0 < s.nTrue := by unfold Geom.nTrue; split <;> omega
  obtain ⟨out, g1, g2⟩ := loop_inv (lo := 0) (n := s.nebins) (s := sp)
    (body := fun k (sp : Spectra K) => do
      let (kmin, kmax, col) ← getEdispConstants s k
      let c ← npredCounts s s.npreds s.wnpreds s.specWts (List.replicate (2 * s.eb + 1) (1 : K))
        k kmin kmax
      let e ← npredCounts s s.npreds s.wnpreds s.specWts col k kmin kmax
      let a ← addAt sp.counts k ((if subtract then -1 else 1) * c.1)
      let b ← addAt sp.countsWt k ((if subtract then -1 else 1) * c.2)
      let c' ← addAt sp.edisp k ((if subtract then -1 else 1) * e.1)
      let d ← addAt sp.edispWt k ((if subtract then -1 else 1) * e.2)
      Res.ok (⟨a, b, c', d⟩ : Spectra K))
    (fun n out => Added sp.counts out.counts n (fun k =>
        (if subtract then -1 else 1) * s.bin s.specWts (fun _ => 1) k) ∧
      Added sp.countsWt out.countsWt n (fun k =>
        (if subtract then -1 else 1) * s.wbin s.specWts (fun _ => 1) k) ∧
      Added sp.edisp out.edisp n (fun k =>
        (if subtract then -1 else 1) * s.bin s.specWts (s.disp k) k) ∧
      Added sp.edispWt out.edispWt n (fun k =>
        (if subtract then -1 else 1) * s.wbin s.specWts (s.disp k) k))
    (by refine ⟨⟨rfl, ?_⟩, ⟨rfl, ?_⟩, ⟨rfl, ?_⟩, ⟨rfl, ?_⟩⟩ <;> (intro k; simp))
    (by
      rintro k out _ hk ⟨i1, i2, i3, i4⟩
      rw [Nat.zero_add] at hk
      obtain ⟨col, c1, c2, c3, c4⟩ := consts_ok h hk
      have hb1 : s.bin s.specWts (val (List.replicate (2 * s.eb + 1) (1 : K))) k =
          s.bin s.specWts (fun _ => 1) k := by
        apply Finset.sum_congr rfl
        intro i hi
        rw [(disp_ones h (Finset.mem_range.1 hi)).1]
      have hb2 : s.wbin s.specWts (val (List.replicate (2 * s.eb + 1) (1 : K))) k =
          s.wbin s.specWts (fun _ => 1) k := by
        apply Finset.sum_congr rfl
        intro i hi
        rw [(disp_ones h (Finset.mem_range.1 hi)).1]
      have hb3 : s.bin s.specWts (val col) k = s.bin s.specWts (s.disp k) k := by
        apply Finset.sum_congr rfl
        intro i hi
        rw [c3 i (Finset.mem_range.1 hi)]
      have hb4 : s.wbin s.specWts (val col) k = s.wbin s.specWts (s.disp k) k := by
        apply Finset.sum_congr rfl
        intro i hi
        rw [c3 i (Finset.mem_range.1 hi)]
      rw [c1, Res.bind_ok]
      simp only
      rw [npredCounts_ok h h.wts hk (disp_ones h hpos).2, Res.bind_ok,
        npredCounts_ok h h.wts hk (by omega), Res.bind_ok, hb1, hb2, hb3, hb4]
      obtain ⟨a1, b1⟩ := i1.step (n := k) (by omega) rfl
      obtain ⟨a2, b2⟩ := i2.step (n := k) (by omega) rfl
      obtain ⟨a3, b3⟩ := i3.step (n := k) (by omega) rfl
      obtain ⟨a4, b4⟩ := i4.step (n := k) (by omega) rfl
      simp only at a1 a2 a3 a4 ⊢
      rw [a1, Res.bind_ok, a2, Res.bind_ok, a3, Res.bind_ok, a4, Res.bind_ok]
      exact ⟨_, rfl, b1, b2, b3, b4⟩)
  rw [Nat.zero_add] at g2
  exact ⟨out, g1, g2⟩

theorem sum_pix (s : SrcMap K) (wts : List (K × K)) (k : Nat) :
    ∑ p ∈ Finset.range s.npix, s.pix wts k p = s.bin wts (s.disp k) k := by
  unfold SrcMap.pix SrcMap.bin SrcMap.plane
  rw [Finset.sum_comm]
  apply Finset.sum_congr rfl
  intro i _
  rw [← Finset.mul_sum, Finset.sum_add_distrib, Finset.sum_mul, Finset.sum_mul]

theorem sum_wpix (s : SrcMap K) (wts : List (K × K)) {k : Nat} (hf : s.first k = s.kmin k) :
    ∑ p ∈ Finset.range s.npix, s.wt k p * s.pix wts k p = s.wbin wts (s.disp k) k := by
  unfold SrcMap.pix SrcMap.wbin SrcMap.wplane
  simp only [Finset.mul_sum]
  rw [Finset.sum_comm]
  apply Finset.sum_congr rfl
  intro i _
  rw [Finset.sum_mul, Finset.sum_mul, ← Finset.sum_add_distrib, Finset.mul_sum, hf]
  apply Finset.sum_congr rfl
  intro p _
  ring

end
end Verif.Edisp
