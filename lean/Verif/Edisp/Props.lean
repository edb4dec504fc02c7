import Verif.Edisp.SparseLemmas
import Verif.Energy.Props
import Mathlib.Data.Rat.Lemmas
import Mathlib.Tactic.NormNum
import Mathlib.Analysis.Complex.ExponentialBounds
set_option linter.unusedVariables false
set_option linter.unusedSectionVars false
/-
C13: dispersion index ranges; C14: predicted counts versus model map; C34: dense
versus sparse npreds; C38: spectral quadrature weights.
-/
namespace Verif.Edisp

open Verif.Vec
open scoped BigOperators

/-! ### C13 -/

/-- C13: for every source map with fitting settings and every measured bin, the
dispersion constants are computed without leaving any vector: the planes `kmin..kmax`
lie inside the map (the last one read is `kmax`), the factors are as many as the planes,
and with the full method the factors are the entries of the response column for the same
true energies, without dispersion they are `[1]` for the bin itself. -/
theorem C13_ranges {K : Type} [Field K] [LinearOrder K] (s : SrcMap K) (h : s.Ok) (k : Nat)
    (hk : k < s.nebins) :
    ∃ kmin kmax col, getEdispConstants s k = .ok (kmin, kmax, col) ∧
      kmin < kmax ∧ kmax < s.nEnergies ∧ col.length = kmax - kmin ∧
      (s.ev = 0 → kmin = k + s.eb ∧ kmax = kmin + 1 ∧ col = [1]) ∧
      (s.ev < 0 → kmax = kmin + 1 ∧ col = [val s.xi k] ∧
        (val s.kref k < 0 → kmin = k + s.eb) ∧
        (0 ≤ val s.kref k → (kmin : Int) = val s.kref k + s.eb)) ∧
      (0 < s.ev → (kmin : Int) = k + s.eb - s.ev ∧ (kmax : Int) = k + 1 + s.eb + s.ev ∧
        ∀ i < col.length, ∀ c, s.drmCols[k]? = some c →
          0 ≤ (kmin : Int) + i - s.off ∧ (kmin : Int) + i - s.off < c.length ∧
          val col i = val c ((kmin : Int) + i - s.off).toNat) := by
  obtain ⟨col, h1, h2, h3, h4⟩ := consts_ok h hk
  have hpos : 0 < s.nTrue := by unfold Geom.nTrue; split <;> omega
  have hE : s.nEnergies = s.nebins + 1 + 2 * s.eb := rfl
  refine ⟨_, _, col, h1, by omega, by omega, by omega, ?_, ?_, ?_⟩
  · intro hev
    have hn := nTrue_of_nonpos (g := s.toGeom) (by omega)
    have hf : s.first k = k + s.eb := by simp [SrcMap.first, hev, Geom.kmin]
    refine ⟨hf, by rw [hn], ?_⟩
    apply ext_val (by simp [h2, hn])
    intro i hi
    have : i = 0 := by omega
    subst this
    rw [h3 0 (by omega)]; simp [SrcMap.disp, hev]
  · intro hev
    have hn := nTrue_of_nonpos (g := s.toGeom) (by omega)
    refine ⟨by rw [hn], ?_, ?_, ?_⟩
    · apply ext_val (by simp [h2, hn])
      intro i hi
      have : i = 0 := by omega
      subst this
      rw [h3 0 (by omega)]; simp [SrcMap.disp, hev, not_lt.2 hev.le]
    · intro hr
      simp only [SrcMap.first, not_le.2 hr, and_false, if_false, Geom.kmin]; omega
    · intro hr
      simp only [SrcMap.first, hev, hr, and_self, if_true]; omega
  · intro hev
    have hw := h.fits.wide hev
    have hoff := h.fits.off
    have hf : s.first k = s.kmin k := by simp [SrcMap.first, not_lt.2 hev.le]
    have hn : s.nTrue = 2 * s.ev.toNat + 1 := by simp [Geom.nTrue, hev]
    have hkm : s.kmin k = k + s.eb - s.ev.toNat := rfl
    refine ⟨by omega, by omega, ?_⟩
    intro i hi c hc
    have hcl := h.col c (List.mem_of_getElem? hc)
    refine ⟨by omega, by omega, ?_⟩
    rw [h3 i (by omega)]
    simp only [SrcMap.disp, hev, if_true, hc, Option.getD_some]
    congr 1; omega

/-- C13: the plane and the response entry paired by the offset belong to the same true
energy: on the grids expanded for the map and for the response, edge `m` of the map's
grid is edge `m - off` of the response's grid. -/
theorem C13_same_energy (es : List ℝ) (g : Geom) (hg : g.Fits) (hlen : es.length = g.nebins + 1)
    (hne : 1 ≤ g.nebins) (hpos : ∀ e ∈ es, 0 < e) (m : Nat) (hm : m < g.nEnergies)
    (hm0 : g.off ≤ m) (hm1 : (m : Int) - g.off < g.nebins + 1 + 2 * g.drmBins) :
    ∃ a b, Energy.expandEnergies es g.eb = .ok a ∧ Energy.expandEnergies es g.drmBins = .ok b ∧
      val a m = val b ((m : Int) - g.off).toNat := by
  obtain ⟨a, a1, a2, a3, a4, a5⟩ := Energy.expand_ok (b := g.eb) (es := es) (by omega) hpos
  obtain ⟨b, b1, b2, b3, b4, b5⟩ := Energy.expand_ok (b := g.drmBins) (es := es) (by omega) hpos
  have hE : g.nEnergies = g.nebins + 1 + 2 * g.eb := rfl
  have hoff := hg.off
  refine ⟨a, b, a1, b1, ?_⟩
  rcases Nat.lt_or_ge m g.eb with hc | hc
  · have e1 := a4 (g.eb - m) (by omega) (by omega)
    have e2 := b4 (g.eb - m) (by omega) (by omega)
    rw [show g.eb - (g.eb - m) = m by omega] at e1
    rw [e1, ← e2]; congr 1; omega
  · rcases Nat.lt_or_ge m (g.eb + es.length) with hc' | hc'
    · have e1 := a3 (m - g.eb) (by omega)
      have e2 := b3 (m - g.eb) (by omega)
      rw [show g.eb + (m - g.eb) = m by omega] at e1
      rw [e1, ← e2]; congr 1; omega
    · have e1 := a5 (m + 1 - (g.eb + es.length)) (by omega) (by omega)
      have e2 := b5 (m + 1 - (g.eb + es.length)) (by omega) (by omega)
      rw [show es.length + g.eb + (m + 1 - (g.eb + es.length)) - 1 = m by omega] at e1
      rw [e1, ← e2]; congr 1; omega

/-- C13: the settings of a computed source map fit, whatever the configuration, as long
as the response matrix was made with that configuration (`|edisp_val|` extra bins, or
any larger number). -/
theorem C13_computed_fits (nebins : Nat) (cfgEv : Int) (useEdisp : Bool) (drmBins : Nat)
    (hd : cfgEv.natAbs ≤ drmBins) : (computed nebins cfgEv useEdisp drmBins).Fits := by
  refine ⟨rfl, ?_⟩
  unfold computed configBins
  cases useEdisp
  · simp
  · simp only [if_true]; omega

/-- C13: the settings of a source map read from an image fit whenever the file is
accepted, under the same condition on the response matrix. -/
theorem C13_image_fits (nebins : Nat) (cfgEv : Int) (useEdisp : Bool) (drmBins nEvals : Nat)
    (hd : cfgEv.natAbs ≤ drmBins) (g : Geom)
    (hg : readImage nebins cfgEv useEdisp drmBins nEvals = .ok g) : g.Fits := by
  unfold readImage at hg
  by_cases h1 : nEvals < nebins + 1
  · simp [h1] at hg
  by_cases h2 : (nEvals - (nebins + 1)) / 2 < (if useEdisp then cfgEv else 0).toNat
  · simp [h1, h2] at hg
  simp only [h1, h2, if_false, Res.ok.injEq] at hg
  subst hg
  refine ⟨rfl, ?_⟩
  simp only
  intro hev
  cases useEdisp
  · simp at hev
  · simp only [if_true] at hev h2 ⊢
    omega

/-- C13: a likelihood used with the dispersion setting it was built with. -/
theorem C13_like_fits (ev : Int) (nebins : Nat) (useEdisp : Bool) :
    ((Like.new ev).newMap nebins useEdisp).Fits :=
  C13_computed_fits nebins ev useEdisp ev.natAbs le_rfl

/-- A small fitting map with the full method: one measured bin, one extra bin each side. -/
def exFull : SrcMap ℚ :=
  { nebins := 1, ev := 1, eb := 1, off := 0, drmBins := 1, npix := 1,
    model := [1, 2, 3, 4], specWts := [(1, 1), (2, 1), (1, 3)], drmCols := [[1/4, 1/2, 1/8]],
    xi := [1], kref := [-1], weights := some [2] }

example : exFull.Ok := by
  refine ⟨⟨rfl, fun _ => ⟨by decide, by decide⟩⟩, rfl, rfl, rfl, ?_, rfl, rfl, ?_, ?_⟩
  · intro c hc; simp [exFull] at hc; subst hc; rfl
  · intro r hr; simp [exFull] at hr; subst hr; decide
  · intro w hw; simp [exFull] at hw; subst hw; rfl

example : getEdispConstants exFull 0 = .ok (0, 3, [1/4, 1/2, 1/8]) := by decide +kernel

/-- C13, refuted: a source map read from a HEALPix table with more planes than the
response needs keeps offset 0, and the copy of the response column leaves the column
(three entries, asked for 1..4). -/
theorem C13_healpix_violates :
    ∃ g, readHealpix 1 1 true 1 6 = .ok g ∧ g.eb = 2 ∧ ¬ g.Fits ∧
      ∀ s : SrcMap ℚ, s.toGeom = g → s.drmCols = [[1/4, 1/2, 1/8]] →
        getEdispConstants s 0 = .ub := by
  refine ⟨⟨1, 1, 2, 0, 1⟩, by decide, rfl, fun h => absurd h.off (by decide), ?_⟩
  intro s hs hc
  unfold getEdispConstants
  rw [hs, show getEdispRange (⟨1, 1, 2, 0, 1⟩ : Geom) 0 = .ok (1, 4) by decide, Res.bind_ok]
  simp only [hc]
  rfl

/-- C13, refuted: a HEALPix table with too few planes for the requested method is not
rejected (an image with the same planes is), and the first plane index is negative. -/
theorem C13_healpix_unchecked_violates :
    readImage 1 1 true 1 2 = .throws ∧
    ∃ g, readHealpix 1 1 true 1 2 = .ok g ∧ getEdispRange g 0 = .ub := by
  refine ⟨by decide, _, rfl, by decide⟩

/-- C13, refuted: switching the full method on after construction does not rebuild the
response matrix; the copy of the response column starts before its first entry. -/
theorem C13_set_edisp_val_violates :
    ∃ l : Like, l = (Like.new 0).setEdispVal 2 ∧
      ∀ s : SrcMap ℚ, s.toGeom = l.newMap 1 true → s.drmCols = [[1]] →
        getEdispConstants s 0 = .ub := by
  refine ⟨_, rfl, ?_⟩
  intro s hs hc
  have hg : ((Like.new 0).setEdispVal 2).newMap 1 true = ⟨1, 2, 2, 2, 0⟩ := by decide
  rw [hg] at hs
  unfold getEdispConstants
  rw [hs]
  rw [show getEdispRange (⟨1, 2, 2, 2, 0⟩ : Geom) 0 = .ok (0, 5) by decide, Res.bind_ok]
  simp only [hc]
  rfl

/-- C42: the dispersion setting in effect for new source maps is the last one requested,
as long as the one given at construction is not requested again. -/
theorem C42_setting_partial (ev0 : Int) (reqs : List Int) (last : Int) (h : last ≠ ev0) :
    ((reqs ++ [last]).foldl Like.setEdispVal (Like.new ev0)).cacheEv = last := by
  have hcfg : ∀ (rs : List Int) (l : Like), (rs.foldl Like.setEdispVal l).cfgEv = l.cfgEv := by
    intro rs
    induction rs with
    | nil => intro l; rfl
    | cons r rs ih =>
      intro l
      rw [List.foldl_cons, ih]
      unfold Like.setEdispVal; split <;> rfl
  rw [List.foldl_append, List.foldl_cons, List.foldl_nil]
  have := hcfg reqs (Like.new ev0)
  unfold Like.setEdispVal at *
  rw [if_neg]
  rw [this]; exact h

example : (([-1, 0, 3] ++ [(2 : Int)]).foldl Like.setEdispVal (Like.new 0)).cacheEv = 2 := by
  decide

/-- C42, refuted: turning dispersion on and off again leaves it on. -/
theorem C42_violates : (([-1, 0] : List Int).foldl Like.setEdispVal (Like.new 0)).cacheEv = -1 := by
  decide

/-! ### C14 -/

section
variable {K : Type} [Field K] [LinearOrder K]

/-- C14: for every source map, the per-bin predicted counts accumulated for the fixed
model are the plane sums of the source's model map, whatever the dispersion method. -/
theorem C14_npred_is_map_sum (s : SrcMap K) (h : s.Ok) :
    ∃ np wn mm sp, computeNpreds s = .ok (np, wn) ∧
      updateModelMap s false (List.replicate (s.nebins * s.npix) 0) = .ok mm ∧
      addFixedNpreds s np wn false (Spectra.zero s.nebins) = .ok sp ∧
      ∀ k < s.nebins, val sp.edisp k = planeSum s.npix mm k := by
  obtain ⟨mm, m1, m2, m3⟩ := updateModelMap_ok h false (map := List.replicate (s.nebins * s.npix) 0)
    (by simp)
  obtain ⟨sp, p1, p2, p3, p4, p5⟩ := addFixedNpreds_ok h false (sp := Spectra.zero s.nebins)
    (by simp [Spectra.zero]) (by simp [Spectra.zero]) (by simp [Spectra.zero])
    (by simp [Spectra.zero])
  refine ⟨_, _, mm, sp, computeNpreds_ok h, m1, p1, ?_⟩
  intro k hk
  rw [p4.2, if_pos hk, planeSum]
  simp only [Spectra.zero, val_replicate_zero, zero_add, Bool.false_eq_true, if_false, one_mul]
  rw [← sum_pix]
  apply Finset.sum_congr rfl
  intro p hp
  rw [m3 k p hk (Finset.mem_range.1 hp), val_replicate_zero, zero_add, if_neg]
  simp [SrcMap.Masked]

/-- C14, weighted: the weighted predicted counts are the weighted plane sums of the model
map, except in the rescaling method for bins that borrow another bin's shape. -/
theorem C14_weighted_partial (s : SrcMap K) (h : s.Ok) :
    ∃ np wn mm sp, computeNpreds s = .ok (np, wn) ∧
      updateModelMap s false (List.replicate (s.nebins * s.npix) 0) = .ok mm ∧
      addFixedNpreds s np wn false (Spectra.zero s.nebins) = .ok sp ∧
      ∀ k < s.nebins, (0 ≤ s.ev ∨ val s.kref k < 0) →
        val sp.edispWt k = s.weightedSum mm k := by
  obtain ⟨mm, m1, m2, m3⟩ := updateModelMap_ok h false (map := List.replicate (s.nebins * s.npix) 0)
    (by simp)
  obtain ⟨sp, p1, p2, p3, p4, p5⟩ := addFixedNpreds_ok h false (sp := Spectra.zero s.nebins)
    (by simp [Spectra.zero]) (by simp [Spectra.zero]) (by simp [Spectra.zero])
    (by simp [Spectra.zero])
  refine ⟨_, _, mm, sp, computeNpreds_ok h, m1, p1, ?_⟩
  intro k hk hc
  have hf : s.first k = s.kmin k := by
    unfold SrcMap.first; rw [if_neg (by omega)]
  rw [p5.2, if_pos hk, SrcMap.weightedSum]
  simp only [Spectra.zero, val_replicate_zero, zero_add, Bool.false_eq_true, if_false, one_mul]
  rw [← sum_wpix s _ hf]
  apply Finset.sum_congr rfl
  intro p hp
  rw [m3 k p hk (Finset.mem_range.1 hp), val_replicate_zero, zero_add, if_neg]
  simp [SrcMap.Masked]

/-- C14: adding and then subtracting a source's predicted counts restores the spectra. -/
theorem C14_add_subtract (s : SrcMap K) (h : s.Ok) (sp : Spectra K)
    (h1 : sp.counts.length = s.nebins) (h2 : sp.countsWt.length = s.nebins)
    (h3 : sp.edisp.length = s.nebins) (h4 : sp.edispWt.length = s.nebins) :
    ∃ np wn sp1, computeNpreds s = .ok (np, wn) ∧ addFixedNpreds s np wn false sp = .ok sp1 ∧
      addFixedNpreds s np wn true sp1 = .ok sp := by
  obtain ⟨o, a1, a2, a3, a4, a5⟩ := addFixedNpreds_ok h false (sp := sp) h1 h2 h3 h4
  obtain ⟨o', b1, b2, b3, b4, b5⟩ := addFixedNpreds_ok h true (sp := o)
    (by rw [a2.1, h1]) (by rw [a3.1, h2]) (by rw [a4.1, h3]) (by rw [a5.1, h4])
  refine ⟨_, _, o, computeNpreds_ok h, a1, ?_⟩
  rw [b1]
  have key : ∀ {v v' v'' : List K} {n : Nat} {f : Nat → K},
      Added v v' n (fun k => (if false = true then -1 else 1) * f k) →
      Added v' v'' n (fun k => (if true = true then -1 else 1) * f k) → v'' = v := by
    intro v v' v'' n f h h'
    apply ext_val (by rw [h'.1, h.1])
    intro k _
    rw [h'.2, h.2]
    by_cases hk : k < n
    · simp [hk]
    · simp [hk]
  congr 1
  cases o'; cases sp
  simp only [Spectra.mk.injEq]
  exact ⟨key a2 b2, key a3 b3, key a4 b4, key a5 b5⟩

end

/-- C14, refuted for weighted counts in the rescaling method.  Two measured bins, one
pixel with weight 1; the map is filled in the first plane only, so bin 1 has no true
counts and borrows bin 0 (`kref = 0`).  The model map holds 5 counts in bin 1, the
weighted predicted counts of bin 1 are 0. -/
def exBorrow : SrcMap ℚ :=
  { nebins := 2, ev := -1, eb := 0, off := -1, drmBins := 1, npix := 1,
    model := [1, 0, 0], specWts := [(1, 1), (1, 1)], drmCols := [[1, 1, 1, 1], [1, 1, 1, 1]],
    xi := [1, 5], kref := [-1, 0], weights := some [1, 1] }

theorem exBorrow_ok : exBorrow.Ok := by
  refine ⟨⟨rfl, fun h => absurd h (by decide)⟩, rfl, rfl, rfl, ?_, rfl, rfl, ?_, ?_⟩
  · intro c hc; simp [exBorrow] at hc; subst hc; rfl
  · intro r hr; simp [exBorrow] at hr; rcases hr with rfl | rfl <;> decide
  · intro w hw; simp [exBorrow] at hw; subst hw; rfl

theorem C14_weighted_violates :
    exBorrow.Ok ∧ ∃ np wn mm sp, computeNpreds exBorrow = .ok (np, wn) ∧
      updateModelMap exBorrow false (List.replicate 2 0) = .ok mm ∧
      addFixedNpreds exBorrow np wn false (Spectra.zero 2) = .ok sp ∧
      mm = [1, 5] ∧ sp.edisp = [1, 5] ∧ sp.edispWt = [1, 0] := by
  refine ⟨exBorrow_ok, [1, 0, 0], [[(1, 0)], [(0, 0)]], [1, 5],
    ⟨[1, 1], [1, 0], [1, 5], [1, 0]⟩, ?_, ?_, ?_, rfl, rfl, rfl⟩ <;> decide +kernel

/-! ### C34 -/

section
variable {K : Type} [Field K] [LinearOrder K]

/-- C34: the plain npreds from sparse storage are those from dense storage. -/
theorem C34_npreds (s : SrcMap K) (h : s.Ok) :
    ∃ np wn wn', computeNpreds s = .ok (np, wn) ∧ computeNpredsSparse s = .ok (np, wn') :=
  ⟨_, _, _, computeNpreds_ok h, computeNpredsSparse_ok h⟩

/-- C34, weighted: the weighted npreds agree for maps in which every pixel empty in the
plane of a measured bin is empty in all planes read for that bin, provided a map without
dispersion has no extra planes. -/
theorem C34_weighted_partial (s : SrcMap K) (h : s.Ok) (heb : s.ev ≤ 0 → s.eb = 0)
    (hsupp : ∀ k < s.nebins, ∀ p < s.npix, val s.model ((k + s.eb) * s.npix + p) = 0 →
      ∀ m < s.nEnergies, val s.model (m * s.npix + p) = 0) :
    computeNpredsSparse s = computeNpreds s := by
  rw [computeNpredsSparse_ok h, computeNpreds_ok h]
  congr 2
  apply List.map_congr_left
  intro k hk
  rw [List.mem_range] at hk
  have hf : s.sfirst k = s.kmin k := by
    unfold SrcMap.sfirst
    by_cases hev : 0 < s.ev
    · rw [if_pos hev]
    · rw [if_neg hev]; unfold Geom.kmin; have := heb (by omega); omega
  have hb := kmin_bound h hk
  unfold SrcMap.srow SrcMap.wrow
  apply List.map_congr_left
  intro i hi
  rw [List.mem_range] at hi
  rw [hf]
  have : ∀ p ∈ Finset.range s.npix, (if s.at' (k + s.eb) p = 0 then (0 : K × K)
      else (s.wt k p * s.at' (s.kmin k + i) p, s.wt k p * s.at' (s.kmin k + i + 1) p)) =
      (s.wt k p * s.at' (s.kmin k + i) p, s.wt k p * s.at' (s.kmin k + i + 1) p) := by
    intro p hp
    rw [Finset.mem_range] at hp
    by_cases h0 : s.at' (k + s.eb) p = 0
    · rw [if_pos h0]
      have hz := hsupp k hk p hp h0
      have z1 : s.at' (s.kmin k + i) p = 0 := hz _ (by unfold Geom.nEnergies; omega)
      have z2 : s.at' (s.kmin k + i + 1) p = 0 := hz _ (by unfold Geom.nEnergies; omega)
      rw [z1, z2, mul_zero]; rfl
    · rw [if_neg h0]
  rw [Finset.sum_congr rfl this]
  refine Prod.ext ?_ ?_
  · rw [Prod.fst_sum]; rfl
  · rw [Prod.snd_sum]; rfl

end

/-- A map with an empty pixel, meeting the hypotheses: two pixels, the second empty. -/
def exSupp : SrcMap ℚ :=
  { nebins := 1, ev := 0, eb := 0, off := 0, drmBins := 0, npix := 2,
    model := [1, 0, 2, 0], specWts := [(1, 1)], drmCols := [[1]], xi := [1], kref := [-1],
    weights := some [3, 5] }

example : computeNpredsSparse exSupp = .ok ([1, 2], [[(3, 6)]]) := by decide +kernel

/-- C34, refuted: a pixel empty at the lower edge of a bin but not at the upper edge
(a source fading in with energy) is missing from the weighted npreds. -/
def exFade : SrcMap ℚ :=
  { nebins := 1, ev := 0, eb := 0, off := 0, drmBins := 0, npix := 1,
    model := [0, 1], specWts := [(1, 1)], drmCols := [[1]], xi := [1], kref := [-1],
    weights := none }

theorem C34_violates :
    computeNpreds exFade = .ok ([0, 1], [[(0, 1)]]) ∧
    computeNpredsSparse exFade = .ok ([0, 1], [[(0, 0)]]) := by
  constructor <;> decide +kernel

/-- C34, refuted: a map with extra planes used without dispersion: the sparse code reads
the planes of the bin without skipping the extra ones. -/
def exExtra : SrcMap ℚ :=
  { nebins := 1, ev := 0, eb := 1, off := 1, drmBins := 0, npix := 1,
    model := [1, 2, 3, 4], specWts := [(1, 1), (1, 1), (1, 1)], drmCols := [[1]], xi := [1],
    kref := [-1], weights := none }

theorem C34_extra_planes_violates :
    computeNpreds exExtra = .ok ([1, 2, 3, 4], [[(2, 3)]]) ∧
    computeNpredsSparse exExtra = .ok ([1, 2, 3, 4], [[(1, 2)]]) := by
  constructor <;> decide +kernel

/-! ### C38 -/

/-- `Source::pixelCounts`, Source.cxx:209-228, for spectrum values `f1`, `f2` at the bin
edges; `linear` is the `USE_LINEAR_QUADRATURE` setting. -/
noncomputable def sourcePixelCounts (linear : Bool) (emin emax f1 f2 wtMin wtMax : ℝ) : ℝ :=
  if linear then (f1 * wtMin + f2 * wtMax) * (emax - emin) / 2
  else (f1 * wtMin * emin + f2 * wtMax * emax) / 2 * Real.log (emax / emin)

/-- C38: without dispersion, the counts of a pixel from the cached spectral weights are
the direct log-log quadrature of spectrum times map over the bin. -/
theorem C38_weights_are_quadrature (s : SrcMap ℝ) (h : s.Ok) (hev : s.ev = 0)
    (es spec : List ℝ) (hes : es.length = s.nEnergies) (hsp : spec.length = es.length) :
    ∃ ratios wts, Energy.logEnergyRatios es = .ok ratios ∧
      Energy.spectralWeights spec es ratios = .ok wts ∧
      ∀ k < s.nebins, ∀ p < s.npix, modelCounts s wts k p = .ok (sourcePixelCounts false
        (val es (k + s.eb)) (val es (k + s.eb + 1))
        (val spec (k + s.eb)) (val spec (k + s.eb + 1))
        (val s.model ((k + s.eb) * s.npix + p)) (val s.model ((k + s.eb + 1) * s.npix + p))) := by
  have hE : s.nEnergies = s.nebins + 1 + 2 * s.eb := rfl
  have hne : es ≠ [] := by intro h0; rw [h0] at hes; simp [hE] at hes; omega
  refine ⟨_, _, Energy.logRatios_ok hne, Energy.spectralWeights_ok hsp (by simp; omega), ?_⟩
  intro k hk p hp
  rw [modelCounts_ok h (by simp; omega) hk hp]
  have hn := nTrue_of_nonpos (g := s.toGeom) (by omega)
  have hf : s.first k = k + s.eb := by simp [SrcMap.first, hev, Geom.kmin]
  congr 1
  unfold SrcMap.pix
  rw [hn, Finset.sum_range_one, hf, Nat.add_zero, val_map_range _ (by simp; omega),
    val_map_range _ (by omega)]
  simp only [SrcMap.disp, hev, lt_irrefl, if_false, SrcMap.at', sourcePixelCounts,
    Bool.false_eq_true]
  ring

/-- C38: the counts of a pixel are linear in the spectral weights, hence in the spectrum. -/
theorem C38_linear {K : Type} [Field K] [LinearOrder K] (s : SrcMap K) (h : s.Ok)
    (f g fg : List (K × K)) (a b : K)
    (hf : f.length = s.nebins + 2 * s.eb) (hg : g.length = f.length) (hfg : fg.length = f.length)
    (hlin : ∀ i < f.length, val fg i =
      (a * (val f i).1 + b * (val g i).1, a * (val f i).2 + b * (val g i).2))
    (k p : Nat) (hk : k < s.nebins) (hp : p < s.npix) :
    ∃ x y, modelCounts s f k p = .ok x ∧ modelCounts s g k p = .ok y ∧
      modelCounts s fg k p = .ok (a * x + b * y) := by
  refine ⟨_, _, modelCounts_ok h hf hk hp, modelCounts_ok h (by omega) hk hp, ?_⟩
  rw [modelCounts_ok h (by omega) hk hp]
  congr 1
  unfold SrcMap.pix
  rw [Finset.mul_sum, Finset.mul_sum, ← Finset.sum_add_distrib]
  apply Finset.sum_congr rfl
  intro i hi
  rw [Finset.mem_range] at hi
  obtain ⟨_, -, -, -, h4⟩ := consts_ok h hk
  rw [hlin _ (by omega)]
  ring

/-- C38: the counts are non-negative for a non-negative map, spectrum and response. -/
theorem C38_nonneg {K : Type} [Field K] [LinearOrder K] [IsStrictOrderedRing K]
    (s : SrcMap K) (h : s.Ok) (wts : List (K × K))
    (hw : wts.length = s.nebins + 2 * s.eb) (hm : ∀ x ∈ s.model, 0 ≤ x)
    (hwp : ∀ x ∈ wts, 0 ≤ x.1 ∧ 0 ≤ x.2) (hd : ∀ c ∈ s.drmCols, ∀ x ∈ c, 0 ≤ x)
    (hx : ∀ x ∈ s.xi, 0 ≤ x) (k p : Nat) (hk : k < s.nebins) (hp : p < s.npix) :
    ∃ c, modelCounts s wts k p = .ok c ∧ 0 ≤ c := by
  refine ⟨_, modelCounts_ok h hw hk hp, ?_⟩
  obtain ⟨_, -, -, -, h4⟩ := consts_ok h hk
  have hv : ∀ j, 0 ≤ val s.model j := by
    intro j
    by_cases hj : j < s.model.length
    · exact hm _ (val_mem hj)
    · rw [val_ge (by omega)]
  apply Finset.sum_nonneg
  intro i hi
  rw [Finset.mem_range] at hi
  have hwi := hwp _ (val_mem (l := wts) (k := s.first k + i) (by omega))
  apply mul_nonneg
  · unfold SrcMap.disp
    by_cases hev : 0 < s.ev
    · rw [if_pos hev]
      have hkc : k < s.drmCols.length := by rw [h.cols]; exact hk
      rw [List.getElem?_eq_getElem hkc, Option.getD_some]
      by_cases hj : k + s.drmBins - s.ev.toNat + i < s.drmCols[k].length
      · exact hd _ (List.getElem_mem hkc) _ (val_mem hj)
      · rw [val_ge (by omega)]
    · rw [if_neg hev]
      by_cases hev' : s.ev < 0
      · rw [if_pos hev']; exact hx _ (val_mem (by rw [h.xi]; exact hk))
      · rw [if_neg hev']; exact zero_le_one
  · exact add_nonneg (mul_nonneg (hv _) hwi.1) (mul_nonneg (hv _) hwi.2)

/-- The hypotheses of the three statements are met by `exFull` over the rationals (and by
its real analogue). -/
example : modelCounts exFull exFull.specWts 0 0 =
    .ok (1/4 * (1 * 1 + 2 * 1) + 1/2 * (2 * 2 + 3 * 1) + 1/8 * (3 * 1 + 4 * 3)) := by
  decide +kernel

/-- One bin [1, 2], one pixel, a constant map. -/
noncomputable def exReal : SrcMap ℝ :=
  { nebins := 1, ev := 0, eb := 0, off := 0, drmBins := 0, npix := 1,
    model := [1, 1], specWts := [(0, 0)], drmCols := [[1]], xi := [1], kref := [-1],
    weights := none }

theorem exReal_ok : exReal.Ok := by
  refine ⟨⟨rfl, fun h => absurd h (by decide)⟩, rfl, rfl, rfl, ?_, rfl, rfl, ?_, ?_⟩
  · intro c hc; simp [exReal] at hc; subst hc; rfl
  · intro r hr; simp [exReal] at hr; subst hr; decide
  · intro w hw; simp [exReal] at hw

/-- C38, refuted for linear quadrature: with the linear-quadrature setting, the binned
likelihood still uses the log-log weights, so its pixel counts are not those of the
source's own `pixelCounts` (constant spectrum and map on the bin [1, 2]: log-log gives
3/2·log 2, linear gives 1). -/
theorem C38_linear_quadrature_violates :
    ∃ ratios wts c, Energy.logEnergyRatios [1, 2] = .ok ratios ∧
      Energy.spectralWeights [1, 1] [1, 2] ratios = .ok wts ∧
      modelCounts exReal wts 0 0 = .ok c ∧ c ≠ sourcePixelCounts true 1 2 1 1 1 1 := by
  obtain ⟨r, w, h1, h2, h3⟩ := C38_weights_are_quadrature exReal exReal_ok rfl [1, 2] [1, 1] rfl rfl
  refine ⟨r, w, _, h1, h2, h3 0 (by decide) 0 (by decide), ?_⟩
  simp only [exReal, Nat.add_zero, Nat.zero_add, Nat.zero_mul, Nat.one_mul, val_cons_zero,
    val_cons_succ, sourcePixelCounts, if_true, Bool.false_eq_true, if_false]
  have := Real.log_two_gt_d9
  norm_num
  intro hc
  linarith

end Verif.Edisp
