import Verif.Counts.Lemmas
import Mathlib.Algebra.Order.Field.Rat
import Mathlib.Algebra.Order.BigOperators.Group.List
/- Property theorems C04, C05 (filled pixels, counts spectrum) and C39 (weights). -/
set_option linter.unusedSectionVars false

namespace Verif.Counts

variable {K : Type} [Field K] [LinearOrder K] [IsStrictOrderedRing K]

/-- C04, the code on one cube: for each plane, the stretch of the filled-pixel list
between the offsets is exactly the pixels with positive counts in increasing
order; offsets are monotone and the last is the length of the list. -/
theorem C04_filled_pixels (ne npix : Nat) (d : List K) (hd : d.length = ne * npix) :
    ∃ filled first, identifyFilled ne npix d = .ok (filled, first) ∧
      first.length = ne + 1 ∧ first[ne]? = some filled.length ∧ first[0]? = some 0 ∧
      (∀ k k', k ≤ k' → k' ≤ ne → (first[k]?).getD 0 ≤ (first[k']?).getD 0) ∧
      ∀ k, k < ne → stretch filled first k = positivePixels (plane npix d k) := by
  refine ⟨_, _, identifyFilled_eq ne npix d hd, by simp, by simp, ?_, ?_, ?_⟩
  · simp [filledUpTo]
  · intro k k' hkk hk'
    simp [show k < ne + 1 by omega, show k' < ne + 1 by omega, filledUpTo_length_mono npix d hkk]
  · intro k hk; exact stretch_filledUpTo ne npix d hk

example : identifyFilled 2 3 ([0, 1, 2, 0, 0, 5] : List ℚ) = .ok ([1, 2, 2], [0, 2, 3]) := by
  decide +kernel

/-- C04, for every history: after constructing the cache and any sequence of
replacing counts or weights, everything derived is what the current counts and
weights determine; no access is out of range. -/
theorem C04_history_coherent (wp : Nat → List K) (ne npix : Nat) (data : List K)
    (ptr : Option Nat) (ops : List (Op K)) (hd : data.length = ne * npix)
    (hp : ∀ i, (wp i).length = ne * npix) :
    ∃ c, (Cache.mk' wp ne npix data ptr >>= fun c => c.run wp ops) = .ok c ∧ Coherent c := by
  obtain ⟨c, h1, h2, h3, h4, -⟩ := mk_good wp ne npix data ptr hd hp
  obtain ⟨c', h5, h6, -⟩ := run_good wp c ops h2 (by rw [h3, h4]; exact hp)
  exact ⟨c', by rw [h1, Res.bind_ok, h5], h6.coh⟩

example : ([1, 0, 2, 0] : List ℚ).length = 2 * 2 ∧ ∀ _ : Nat, ([1, 1, 0, 1] : List ℚ).length = 2 * 2 :=
  ⟨rfl, fun _ => rfl⟩

/-- C04: with weights, a pixel is listed iff its counts and its weight are positive. -/
theorem C04_weighted_pixel_iff (data weights : List K) (npix k p : Nat) (hp : p < npix)
    (hw : weights.length = data.length) (hi : k * npix + p < data.length) :
    0 < ((plane npix (weighted data weights) k)[p]?).getD 0 ↔
      0 < data[k * npix + p] ∧ 0 < weights[k * npix + p] := by
  rw [plane_getElem? hp, List.getElem?_eq_getElem (by rw [weighted_length _ _ hw]; exact hi)]
  simp only [weighted, List.getElem_zipWith, Option.getD_some]
  split
  · rename_i h
    simp only [lt_self_iff_false, false_iff]
    rintro ⟨h1, h2⟩
    rcases h with h | h
    · exact absurd h2 (not_lt.2 h)
    · exact absurd h1 (not_lt.2 h)
  · rename_i h
    push Not at h
    exact ⟨fun _ => ⟨h.2, h.1⟩, fun ⟨h1, h2⟩ => mul_pos h1 h2⟩

/-- C05: the WCS loop nest (x, y, energy) gives the plane sums of the data and of
the effective (weighted) data. -/
theorem C05_spectrum_wcs (nx ny nz : Nat) (d dw : List K)
    (hd : d.length = nz * (nx * ny)) (hdw : dw.length = nz * (nx * ny)) :
    countsSpectrumWcs nx ny nz d dw = .ok
      ((List.range nz).map (fun k => (plane (nx * ny) d k).sum),
       (List.range nz).map (fun k => (plane (nx * ny) dw k).sum)) := by
  rw [countsSpectrumWcs_eq_healpix, countsSpectrumHealpix_eq _ _ _ _ hd hdw]

/-- C05: same for the HEALPix loop. -/
theorem C05_spectrum_healpix (npix ne : Nat) (d dw : List K)
    (hd : d.length = ne * npix) (hdw : dw.length = ne * npix) :
    countsSpectrumHealpix npix ne d dw = .ok
      ((List.range ne).map (fun k => (plane npix d k).sum),
       (List.range ne).map (fun k => (plane npix dw k).sum)) :=
  countsSpectrumHealpix_eq _ _ _ _ hd hdw

example : countsSpectrumWcs 2 1 2 ([1, 2, 3, 4] : List ℚ) [1, 0, 3, 0] =
    .ok ([3, 7], [1, 3]) := by decide +kernel

/-- C05: the spectrum adds up to the total counts. -/
theorem C05_spectrum_total (npix ne : Nat) (d dw : List K) (hd : d.length = ne * npix)
    (hdw : dw.length = ne * npix) :
    ∃ s sw, countsSpectrumHealpix npix ne d dw = .ok (s, sw) ∧ s.length = ne ∧
      s.sum = d.sum ∧ sw.sum = dw.sum := by
  refine ⟨_, _, countsSpectrumHealpix_eq _ _ _ _ hd hdw, by simp, ?_, ?_⟩
  · rw [sum_planes, List.take_of_length_le (by omega)]
  · rw [sum_planes, List.take_of_length_le (by omega)]

/-- C05: the code's weighted counts are data times weight, counting non-positive
data or weights as zero; all accesses are in range. -/
theorem C05_weighted_counts (ne npix : Nat) (data weights : List K)
    (hd : data.length = ne * npix) (hw : weights.length = ne * npix) :
    ∃ r, weightedCounts ne npix data weights = .ok r ∧ r.length = ne * npix ∧
      ∀ i (h1 : i < r.length) (h2 : i < data.length) (h3 : i < weights.length),
        r[i] = (if weights[i] ≤ 0 ∨ data[i] ≤ 0 then 0 else data[i] * weights[i]) ∧ 0 ≤ r[i] := by
  refine ⟨_, weightedCounts_eq ne npix data weights hd hw, by simp [weighted, hd, hw], ?_⟩
  intro i h1 h2 h3
  refine ⟨by simp [weighted], ?_⟩
  simp only [weighted, List.getElem_zipWith]
  split
  · exact le_refl _
  · rename_i h
    push Not at h
    exact (mul_pos h.2 h.1).le

example : weightedCounts 2 2 ([1, -1, 2, 3] : List ℚ) [2, 1, 0, 1 / 2] = .ok [2, 0, 0, 3 / 2] := by
  decide +kernel

/-- C39 (partial): as long as the original weight map is never deleted, the weights
in effect are those of the map last requested. -/
theorem C39_weights_last_requested_partial (wp : Nat → List K) (ne npix : Nat) (data : List K)
    (ptr ptr' : Option Nat) (ops : List (Op K)) (hd : data.length = ne * npix)
    (hp : ∀ i, (wp i).length = ne * npix) (hno : .deleteOriginalWeightMap ∉ ops) :
    ∃ c c', (Cache.mk' wp ne npix data ptr >>= fun c => c.run wp ops) = .ok c ∧
      c.step wp (.setWeightsMap ptr') = .ok c' ∧ c'.wMap = ptr'.map wp := by
  obtain ⟨c0, h1, h2, h3, h4, -, h5, h6⟩ := mk_good wp ne npix data ptr hd hp
  have hinv : ∀ (ops : List (Op K)) (c : Cache K), Good c → c.ne = ne → c.npix = npix →
      .deleteOriginalWeightMap ∉ ops → c.wMap = c.wOrig.map wp →
      ∃ c', c.run wp ops = .ok c' ∧ Good c' ∧ c'.wMap = c'.wOrig.map wp ∧ c'.ne = ne ∧
        c'.npix = npix := by
    intro ops
    induction ops with
    | nil => intro c hc h3 h4 _ h; exact ⟨c, rfl, hc, h, h3, h4⟩
    | cons op ops ih =>
      intro c hc hne hnp hno hm
      have hstep : ∀ c1, c.step wp op = .ok c1 → c1.wMap = c1.wOrig.map wp := by
        intro c1 hc1
        cases op with
        | setCountsMap counts =>
          simp only [Cache.step] at hc1
          split at hc1
          · cases hc1
          · rename_i hl
            push Not at hl
            obtain ⟨c', g1, g2, g3, g4, g5, -⟩ := refresh_coherent
              ({ c with data := counts } : Cache K) (hl.trans hc.dlen) hc.wlen
            rw [g1] at hc1
            cases hc1
            rw [g4, g5]; exact hm
        | setWeightsMap p =>
          simp only [Cache.step] at hc1
          split at hc1
          · cases hc1; exact hm
          · have hw : ∀ w, p.map wp = some w → w.length = c.ne * c.npix := by
              intro w hw
              cases p with
              | none => simp at hw
              | some i => simp at hw; rw [← hw, hne, hnp]; exact hp i
            obtain ⟨c', g1, g2, g3, g4, g5, -⟩ := refresh_coherent
              ({ c with wOrig := p, wMap := p.map wp } : Cache K) hc.dlen hw
            rw [g1] at hc1
            cases hc1
            rw [g4, g5]
        | deleteOriginalWeightMap => simp at hno
      have hp' : ∀ i, (wp i).length = c.ne * c.npix := by rw [hne, hnp]; exact hp
      have hno' : .deleteOriginalWeightMap ∉ ops := fun h => hno (List.mem_cons_of_mem _ h)
      rcases step_good wp c op hc hp' with g1 | ⟨c1, g1, g2, g3, g4⟩
      · simp only [Cache.run, g1]; exact ih c hc hne hnp hno' hm
      · simp only [Cache.run, g1]
        exact ih c1 g2 (g3.trans hne) (g4.trans hnp) hno' (hstep c1 g1)
  obtain ⟨c, g1, g2, g3, g4, g5⟩ := hinv ops c0 h2 h3 h4 hno (by rw [h5, h6])
  have hp' : ∀ i, (wp i).length = c.ne * c.npix := by rw [g4, g5]; exact hp
  by_cases hpp : ptr' = c.wOrig
  · exact ⟨c, c, by rw [h1, Res.bind_ok, g1], by simp [Cache.step, hpp], by rw [g3, hpp]⟩
  · have hw : ∀ w, ptr'.map wp = some w → w.length = c.ne * c.npix := by
      intro w hw
      cases ptr' with
      | none => simp at hw
      | some i => simp at hw; rw [← hw]; exact hp' i
    obtain ⟨c', e1, e2, e3, e4, -⟩ := refresh_coherent
      ({ c with wOrig := ptr', wMap := ptr'.map wp } : Cache K) g2.dlen hw
    exact ⟨c, c', by rw [h1, Res.bind_ok, g1], by simp only [Cache.step, hpp, if_false]; exact e1, e4⟩

/-- C39, negation: after the original map was deleted, a request to drop the
weights (null map) is silently ignored (BinnedCountsCache.cxx:61 compares with the
pointer that was reset to null at line 84). -/
theorem C39_drop_weights_violates :
    ∃ (wp : Nat → List ℚ) (c c' : Cache ℚ),
      (Cache.mk' wp 1 1 [3] (some 0) >>= fun c => c.step wp .deleteOriginalWeightMap) = .ok c ∧
      c.step wp (.setWeightsMap none) = .ok c' ∧ c'.wMap = some (wp 0) ∧ c'.specWt = [6] := by
  refine ⟨fun _ => [2], ⟨1, 1, [3], none, some [2], some [6], [0], [0, 1], [3], [6]⟩, _, ?_, rfl,
    rfl, rfl⟩
  decide +kernel

end Verif.Counts
