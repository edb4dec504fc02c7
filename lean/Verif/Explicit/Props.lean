import Verif.Explicit.Lemmas
set_option linter.unusedSectionVars false
set_option linter.unusedSimpArgs false
set_option linter.unusedVariables false
/-
C153: the counts predicted pixel by pixel.
-/
namespace Verif.Explicit

open Edisp MapOut Vec Spec
open scoped BigOperators

variable {K : Type} [Field K] [LinearOrder K]

/-- The counts predicted for the whole model are the sum of those predicted for its sources, with and without weights. -/
theorem C153_additive {nb npix : Nat} {w : Option (List K)} {maps : List (SrcMap K)} (h : Like nb npix w maps) (hne : maps ≠ [])
    {weighted : Bool} (hg : Given w weighted) :
    ∃ v : SrcMap K → K, (∀ s ∈ maps, npredExplicitSrc (nb * npix) w s weighted = .ok (v s)) ∧
      npredExplicit (nb * npix) w maps weighted = .ok ((maps.map v).sum) := by
  classical
  have hx : ∀ s : SrcMap K, ∃ M, s ∈ maps → MapOf s M := by
    intro s
    by_cases hs : s ∈ maps
    · obtain ⟨M, hM⟩ := mapOf_exists (h s hs).1
      exact ⟨M, fun _ => hM⟩
    · exact ⟨[], fun hc => absurd hc hs⟩
  choose M hM using hx
  refine ⟨fun s => keptSum w weighted (M s), fun s hs => src_ok (fun t ht => ?_) (hM s hs) hg, npred_ok M h hM hg ?_⟩
  · rw [List.mem_singleton] at ht
    subst ht
    exact h t hs
  · obtain ⟨s, hs⟩ := List.exists_mem_of_ne_nil maps hne
    exact src_weights (s := s) (fun t ht => by rw [List.mem_singleton] at ht; subst ht; exact h t hs)

/-- The spectrum has an entry for each energy bin, and the entries add up to the counts predicted for the source. -/
theorem C153_spectrum {nb npix : Nat} {w : Option (List K)} {s : SrcMap K} (h : Like nb npix w [s]) {weighted : Bool}
    (hg : Given w weighted) :
    ∃ sp : List K, spectrumExplicit (nb * npix) nb npix w s weighted = .ok sp ∧ sp.length = nb ∧
      npredExplicitSrc (nb * npix) w s weighted = .ok sp.sum ∧
      ∀ M, MapOf s M → (∀ i < nb * npix, Kept w i) → ∀ k < nb,
        val sp k = ∑ p ∈ Finset.range npix, wtAt w weighted (k * npix + p) * val M (k * npix + p) := by
  classical
  obtain ⟨h1, h2, h3, h4⟩ := h s List.mem_cons_self
  obtain ⟨M, hM⟩ := mapOf_exists h1
  obtain ⟨r, k1, k2, k3⟩ := map_part (fun _ => M) h (fun t ht => by rw [List.mem_singleton] at ht; subst ht; exact hM)
  have hw := src_weights h
  have hb : ∀ k ∈ List.range nb, binSum (if weighted then w else none) r (k * npix) npix =
      .ok (∑ p ∈ Finset.range npix, wtAt w weighted (k * npix + p) * part w M (k * npix + p)) := by
    intro k hk
    rw [List.mem_range] at hk
    have hlt : ∀ i, k * npix ≤ i → i < k * npix + npix → i < nb * npix := by
      intro i _ hi
      calc i < k * npix + npix := hi
        _ = (k + 1) * npix := by ring
        _ ≤ nb * npix := Nat.mul_le_mul_right _ hk
    unfold binSum
    rw [loop_sum (fun i => wtAt w weighted i * part w M i) 0, zero_add]
    intro i acc hi1 hi2
    have hi := hlt i hi1 hi2
    have hv : val r i = part w M i := by rw [k3 i hi]; simp
    rw [vget_val (by rw [k2]; exact hi), Res.bind_ok, hv]
    unfold wtAt
    cases weighted with
    | false => simp
    | true =>
      cases w with
      | none => exact absurd rfl (hg rfl)
      | some ws =>
        simp only [if_true]
        rw [vget_val (by rw [hw ws rfl]; exact hi), Res.bind_ok, mul_comm]
  have hsp : spectrumExplicit (nb * npix) nb npix w s weighted = .ok ((List.range nb).map
      (fun k => ∑ p ∈ Finset.range npix, wtAt w weighted (k * npix + p) * part w M (k * npix + p))) := by
    unfold spectrumExplicit
    rw [if_neg (by
      intro hc
      rw [Bool.and_eq_true] at hc
      exact hg hc.1 (by simpa using hc.2)), k1, Res.bind_ok]
    exact mapM_ok _ _ _ hb
  refine ⟨_, hsp, by simp, ?_, ?_⟩
  · rw [src_ok h hM hg]
    refine congrArg Res.ok ?_
    rw [← sum_part (n := nb * npix) (by rw [hM.1, h2, h3]), ← sum_bins]
    rw [sum_val, List.length_map, List.length_range]
    refine Finset.sum_congr rfl fun k hk => ?_
    rw [val_map_range _ (Finset.mem_range.mp hk)]
  · intro M' hM' hk k hlt
    obtain rfl : M' = M := Res.ok.inj (hM'.2.symm.trans hM.2)
    rw [val_map_range _ hlt]
    refine Finset.sum_congr rfl fun p hp => ?_
    unfold part
    rw [if_pos (hk _ (idx_lt (Finset.mem_range.mp hp) hlt))]

/-- Where no pixel is excluded by its weight, the counts predicted pixel by pixel are those of all pixels of the map of the source, and
without weights they are the counts that the likelihood keeps for a fixed source.  What is missing for the full property: pixels that
are excluded. -/
theorem C153_npred_partial {nb npix : Nat} {w : Option (List K)} {s : SrcMap K} (h : Like nb npix w [s])
    (hk : ∀ i < nb * npix, Kept w i) :
    (∀ weighted, Given w weighted → ∀ M, MapOf s M → npredExplicitSrc (nb * npix) w s weighted = .ok (fullSum w weighted M)) ∧
    ∃ np wn sp, computeNpreds s = .ok (np, wn) ∧ addFixedNpreds s np wn false (Spectra.zero s.nebins) = .ok sp ∧
      npredExplicitSrc (nb * npix) w s false = .ok (∑ k ∈ Finset.range nb, val sp.edisp k) := by
  classical
  obtain ⟨h1, h2, h3, h4⟩ := h s List.mem_cons_self
  have key : ∀ weighted, Given w weighted → ∀ M, MapOf s M →
      npredExplicitSrc (nb * npix) w s weighted = .ok (fullSum w weighted M) := by
    intro weighted hg M hM
    rw [src_ok h hM hg]
    unfold keptSum fullSum
    rw [Finset.filter_true_of_mem]
    intro i hi
    rw [Finset.mem_range, hM.1, h2, h3] at hi
    exact hk i hi
  refine ⟨key, ?_⟩
  obtain ⟨np, wn, mm, sp, a1, a2, a3, a4⟩ := C14_npred_is_map_sum s h1
  obtain ⟨M, hM⟩ := mapOf_exists h1
  obtain rfl : M = mm := Res.ok.inj (hM.2.symm.trans a2)
  refine ⟨np, wn, sp, a1, a3, ?_⟩
  rw [key false (fun hc => by cases hc) M hM]
  refine congrArg Res.ok ?_
  unfold fullSum wtAt
  simp only [Bool.false_eq_true, if_false, one_mul]
  rw [hM.1, h2, h3, ← sum_bins]
  refine Finset.sum_congr rfl fun k hlt => ?_
  rw [a4 k (by rw [h2]; exact Finset.mem_range.mp hlt), planeSum, h3]

/-- With weights asked for, excluded pixels make no difference, if no weight is negative. -/
theorem C153_weighted {nb npix : Nat} {ws : List K} {s : SrcMap K} (h : Like nb npix (some ws) [s])
    (hp : ∀ i < nb * npix, 0 ≤ val ws i) {M : List K} (hM : MapOf s M) :
    npredExplicitSrc (nb * npix) (some ws) s true = .ok (fullSum (some ws) true M) := by
  classical
  obtain ⟨h1, h2, h3, h4⟩ := h s List.mem_cons_self
  rw [src_ok h hM (fun _ hc => by cases hc)]
  unfold keptSum fullSum
  rw [Finset.sum_filter]
  refine congrArg Res.ok (Finset.sum_congr rfl fun i hi => ?_)
  rw [Finset.mem_range, hM.1, h2, h3] at hi
  by_cases hk : Kept (some ws) i
  · rw [if_pos hk]
  · rw [if_neg hk]
    have hz : val ws i = 0 := by
      by_contra hc
      refine hk fun v hv => ?_
      cases hv
      exact lt_of_le_of_ne (hp i hi) (Ne.symm hc)
    simp [wtAt, hz]

open Classical in
/-- Without weights asked for, but with a map of weights, the counts in pixels of weight zero are left out, so that the counts
predicted pixel by pixel are not those that the likelihood has for the source: they differ by what is in these pixels. -/
theorem C153_mask_violates {nb npix : Nat} {ws : List K} {s : SrcMap K} (h : Like nb npix (some ws) [s]) {M : List K} (hM : MapOf s M) :
    ∃ np wn sp v, computeNpreds s = .ok (np, wn) ∧ addFixedNpreds s np wn false (Spectra.zero s.nebins) = .ok sp ∧
      npredExplicitSrc (nb * npix) (some ws) s false = .ok v ∧
      ∑ k ∈ Finset.range nb, val sp.edisp k = v + ∑ i ∈ (Finset.range (nb * npix)).filter (fun i => val ws i ≤ 0), val M i := by
  obtain ⟨h1, h2, h3, h4⟩ := h s List.mem_cons_self
  obtain ⟨np, wn, mm, sp, a1, a2, a3, a4⟩ := C14_npred_is_map_sum s h1
  obtain rfl : M = mm := Res.ok.inj (hM.2.symm.trans a2)
  refine ⟨np, wn, sp, _, a1, a3, src_ok h hM (fun hc => by cases hc), ?_⟩
  have hl : ∑ k ∈ Finset.range nb, val sp.edisp k = ∑ i ∈ Finset.range (nb * npix), val M i := by
    rw [← sum_bins]
    refine Finset.sum_congr rfl fun k hlt => ?_
    rw [a4 k (by rw [h2]; exact Finset.mem_range.mp hlt), planeSum, h3]
  rw [hl]
  unfold keptSum wtAt
  simp only [Bool.false_eq_true, if_false, one_mul]
  rw [hM.1, h2, h3, ← Finset.sum_filter_add_sum_filter_not (Finset.range (nb * npix)) (Kept (some ws))]
  congr 1
  refine Finset.sum_congr (Finset.filter_congr fun i _ => ?_) fun _ _ => rfl
  unfold Kept
  constructor
  · intro hc
    by_contra hn
    exact hc fun v hv => by cases hv; exact not_le.mp hn
  · intro hc hn
    exact absurd (hn ws rfl) (not_lt.mpr hc)

/-- Weights that are asked for but not there are an error. -/
theorem C153_no_weights {nb npix : Nat} {maps : List (SrcMap K)} (h : Like nb npix none maps) :
    npredExplicit (nb * npix) none maps true = .throws ∧
    ∀ s ∈ maps, npredExplicitSrc (nb * npix) none s true = .throws ∧ spectrumExplicit (nb * npix) nb npix none s true = .throws := by
  classical
  have hx : ∀ s : SrcMap K, ∃ M, s ∈ maps → MapOf s M := by
    intro s
    by_cases hs : s ∈ maps
    · obtain ⟨M, hM⟩ := mapOf_exists (h s hs).1
      exact ⟨M, fun _ => hM⟩
    · exact ⟨[], fun hc => absurd hc hs⟩
  choose M hM using hx
  refine ⟨?_, fun s hs => ⟨?_, rfl⟩⟩
  · obtain ⟨r, k1, -⟩ := map_part M h hM
    unfold npredExplicit
    rw [k1, Res.bind_ok]
    rfl
  · obtain ⟨r, k1, -⟩ := map_part M (maps := [s]) (fun t ht => by rw [List.mem_singleton] at ht; subst ht; exact h t hs)
      (fun t ht => by rw [List.mem_singleton] at ht; subst ht; exact hM t hs)
    unfold npredExplicitSrc
    rw [k1, Res.bind_ok]
    rfl

/-- `nll_explict` is the logarithm of the likelihood of the summed map, for every model that gives counts wherever there are data,
without a map of weights.  It is not the negative logarithm that its name says, unless that is zero. -/
theorem C153_nll_violates {nb npix : Nat} {maps : List (SrcMap ℝ)} (h : Like nb npix none maps) (M : SrcMap ℝ → List ℝ)
    (hM : ∀ s ∈ maps, MapOf s (M s)) {data : List ℝ} (hd : data.length = nb * npix)
    (hdata : ∀ i < nb * npix, val data i = 0 ∨ (1e-9 : ℝ) < val data i)
    (hpos : ∀ i < nb * npix, 0 ≤ (maps.map (fun s => val (M s) i)).sum ∧
      (val data i ≠ 0 → 0 < (maps.map (fun s => val (M s) i)).sum)) :
    ∃ m : List ℝ, m.length = nb * npix ∧ (∀ i < nb * npix, val m i = (maps.map (fun s => val (M s) i)).sum) ∧
      nllExplicit (nb * npix) data none maps false = .ok (logLike data m) ∧
      (nllExplicit (nb * npix) data none maps false = .ok (- logLike data m) ↔ logLike data m = 0) := by
  classical
  obtain ⟨r, k1, k2, k3⟩ := map_part M h hM
  have hr : ∀ i < nb * npix, val r i = (maps.map (fun s => val (M s) i)).sum := by
    intro i hi
    rw [k3 i hi]
    refine congrArg List.sum (List.map_congr_left fun s _ => ?_)
    unfold part
    rw [if_pos (show Kept none i from fun ws hw => by cases hw)]
  have key : nllExplicit (nb * npix) data none maps false = .ok (logLike data r) := by
    unfold nllExplicit
    rw [k1, Res.bind_ok, if_neg (by decide), FitUtils.logLikePoisson_ones]
    unfold FitUtils.logLikePoissonW
    rw [if_neg (by simp [hd, k2]), if_neg (by rw [List.length_replicate]; simp)]
    have hone : ∀ k < data.length, FitUtils.val (List.replicate data.length (1 : ℝ)) k = 1 := fun k hk => FitUtils.val_replicate hk
    rw [FitUtils.llLoopW_ok data r _ 0 0 (by rw [hd, k2]) (by rw [List.length_replicate])]
    · refine congrArg Res.ok ?_
      unfold logLike
      rw [sub_zero, zero_add]
      refine Finset.sum_congr rfl fun i hi => ?_
      have hi' := Finset.mem_range.mp hi
      rw [hone i hi']
      unfold FitUtils.term
      have e1 : FitUtils.val data i = val data i := rfl
      have e2 : FitUtils.val r i = val r i := rfl
      rw [e1, e2, mul_one, mul_one]
      rcases hdata i (by rw [← hd]; exact hi') with h0 | h0
      · rw [h0, if_neg (by norm_num)]
        ring
      · rw [if_pos h0]
    · intro k hk
      have hk' : k < nb * npix := by rw [← hd]; exact hk
      have e1 : FitUtils.val data k = val data k := rfl
      have e2 : FitUtils.val r k = val r k := rfl
      rw [hone k hk, e1, e2, mul_one, hr k hk']
      refine ⟨(hpos k hk').1, fun hlt => (hpos k hk').2 ?_⟩
      intro hc
      rw [hc] at hlt
      norm_num at hlt
  refine ⟨r, k2, hr, key, ?_⟩
  rw [key]
  constructor
  · intro hc
    have := Res.ok.inj hc
    linarith
  · intro hc
    rw [hc, neg_zero]

/-- With a map of weights, `nll_explict` without weights fails if there are data in any pixel of weight zero, whatever the model. -/
theorem C153_nll_masked_violates {nb npix : Nat} {ws : List ℝ} {maps : List (SrcMap ℝ)} (h : Like nb npix (some ws) maps)
    {data : List ℝ} (hd : data.length = nb * npix) {i : Nat} (hi : i < nb * npix) (h0 : val ws i ≤ 0) (h1 : (1e-9 : ℝ) < val data i) :
    nllExplicit (nb * npix) data (some ws) maps false = .throws := by
  classical
  have hx : ∀ s : SrcMap ℝ, ∃ M, s ∈ maps → MapOf s M := by
    intro s
    by_cases hs : s ∈ maps
    · obtain ⟨M, hM⟩ := mapOf_exists (h s hs).1
      exact ⟨M, fun _ => hM⟩
    · exact ⟨[], fun hc => absurd hc hs⟩
  choose M hM using hx
  obtain ⟨r, k1, k2, k3⟩ := map_part M h hM
  unfold nllExplicit
  rw [k1, Res.bind_ok, if_neg (by decide)]
  unfold FitUtils.logLikePoisson
  rw [if_neg (by simp [hd, k2])]
  refine llLoop_zero data r 0 0 (by rw [hd, k2]) ⟨i, by rw [hd]; exact hi, h1, ?_⟩
  rw [k3 i hi]
  have : ∀ s ∈ maps, part (some ws) (M s) i = 0 := by
    intro s _
    unfold part
    rw [if_neg (fun hc => absurd (hc ws rfl) (not_lt.mpr h0))]
  rw [List.map_congr_left this]
  simp

/-- With weights, none of which is negative, `nll_explict` is the weighted logarithm of the likelihood of the summed map, whether
pixels are excluded or not; without a map of weights it is an error. -/
theorem C153_nll_weighted {nb npix : Nat} {w : Option (List ℝ)} {maps : List (SrcMap ℝ)} (h : Like nb npix w maps)
    (M : SrcMap ℝ → List ℝ) (hM : ∀ s ∈ maps, MapOf s (M s)) {data : List ℝ} (hd : data.length = nb * npix) :
    (w = none → nllExplicit (nb * npix) data w maps true = .throws) ∧
    (∀ ws, w = some ws → ws.length = nb * npix →
      (∀ i < nb * npix, 0 ≤ val ws i ∧ (val data i * val ws i = 0 ∨ (1e-9 : ℝ) < val data i * val ws i) ∧
        0 ≤ (maps.map (fun s => val (M s) i)).sum ∧
        (val data i * val ws i ≠ 0 → 0 < (maps.map (fun s => val (M s) i)).sum)) →
      ∃ m : List ℝ, m.length = nb * npix ∧ (∀ i < nb * npix, val m i = (maps.map (fun s => val (M s) i)).sum) ∧
        nllExplicit (nb * npix) data w maps true =
          .ok (∑ i ∈ Finset.range (nb * npix), val ws i * (val data i * Real.log (val m i) - val m i))) := by
  classical
  obtain ⟨r, k1, k2, k3⟩ := map_part M h hM
  refine ⟨fun hw => ?_, fun ws hw hl hp => ?_⟩
  · subst hw
    unfold nllExplicit
    rw [k1, Res.bind_ok]
    rfl
  · subst hw
    have hr : ∀ i < nb * npix, 0 < val ws i → val r i = (maps.map (fun s => val (M s) i)).sum := by
      intro i hi h0
      rw [k3 i hi]
      refine congrArg List.sum (List.map_congr_left fun s _ => ?_)
      unfold part
      rw [if_pos (show Kept (some ws) i from fun v hv => by cases hv; exact h0)]
    have hz : ∀ i < nb * npix, ¬ 0 < val ws i → val r i = 0 := by
      intro i hi h0
      rw [k3 i hi, List.map_congr_left (g := fun _ => (0 : ℝ)) (fun s _ => by
        unfold part
        rw [if_neg (fun hc => h0 (hc ws rfl))])]
      simp
    refine ⟨(List.range (nb * npix)).map (fun i => (maps.map (fun s => val (M s) i)).sum), by simp,
      fun i hi => val_map_range _ hi, ?_⟩
    unfold nllExplicit
    rw [k1, Res.bind_ok, if_pos rfl]
    show FitUtils.logLikePoissonW data r ws = _
    unfold FitUtils.logLikePoissonW
    rw [if_neg (by simp [hd, k2]), if_neg (by simp [hd, hl]),
      FitUtils.llLoopW_ok data r ws 0 0 (by rw [hd, k2]) (by rw [hd, hl])]
    · refine congrArg Res.ok ?_
      rw [sub_zero, zero_add, hd]
      refine Finset.sum_congr rfl fun i hi => ?_
      have hi' := Finset.mem_range.mp hi
      rw [val_map_range _ hi']
      obtain ⟨p1, p2, p3, p4⟩ := hp i hi'
      unfold FitUtils.term
      change (if (1e-9 : ℝ) < val data i * val ws i then val data i * val ws i * Real.log (val r i) else 0) - val r i * val ws i = _
      by_cases h0 : 0 < val ws i
      · rw [hr i hi' h0]
        rcases p2 with p2 | p2
        · rw [p2, if_neg (by norm_num)]
          have : val data i = 0 := by
            rcases mul_eq_zero.mp p2 with h | h
            · exact h
            · exact absurd h (ne_of_gt h0)
          rw [this]
          ring
        · rw [if_pos p2]
          ring
      · have he : val ws i = 0 := le_antisymm (not_lt.mp h0) p1
        rw [he, mul_zero, if_neg (by norm_num)]
        ring
    · intro k hk
      have hk' : k < nb * npix := by rw [← hd]; exact hk
      obtain ⟨p1, p2, p3, p4⟩ := hp k hk'
      change 0 ≤ val r k ∧ ((1e-9 : ℝ) < val data k * val ws k → 0 < val r k)
      by_cases h0 : 0 < val ws k
      · rw [hr k hk' h0]
        refine ⟨p3, fun hlt => p4 ?_⟩
        intro hc
        rw [hc] at hlt
        norm_num at hlt
      · refine ⟨le_of_eq (hz k hk' h0).symm, fun hlt => ?_⟩
        have he : val ws k = 0 := le_antisymm (not_lt.mp h0) p1
        rw [he, mul_zero] at hlt
        norm_num at hlt

/-! ### An example: two energy bins of two pixels -/

/-- A map with a weight of zero in one pixel. -/
def exMap : SrcMap ℚ :=
  ⟨⟨2, 0, 0, 0, 0⟩, 2, [1, 2, 3, 4, 5, 6], [(1, 0), (1, 0)], [[1, 0], [0, 1]], [1, 1], [-1, -1], some [1, 0, 1, 1]⟩

theorem exMap_like : Like 2 2 (some [1, 0, 1, 1]) [exMap] := by
  intro s hs
  rw [List.mem_singleton] at hs
  subst hs
  refine ⟨⟨⟨rfl, fun h => absurd h (by decide)⟩, rfl, rfl, rfl, ?_, rfl, rfl, ?_, ?_⟩, rfl, rfl, rfl⟩
  · intro c hc; simp [exMap] at hc; rcases hc with rfl | rfl <;> rfl
  · intro r hr; simp [exMap] at hr; subst hr; decide
  · intro w hw; simp [exMap] at hw; subst hw; rfl

example : MapOf exMap [1, 2, 3, 4] := ⟨rfl, by decide +kernel⟩

/-- The likelihood has ten counts, eight are found pixel by pixel. -/
example : npredExplicitSrc 4 (some [1, 0, 1, 1]) exMap false = .ok 8 := by decide +kernel

example : ∀ i < 4, (0 : ℚ) ≤ val [1, 0, 1, 1] i := by decide +kernel

example : Like 2 2 none [{ exMap with weights := none }] ∧ ∀ i < 4, Kept (none : Option (List ℚ)) i := by
  refine ⟨fun s hs => ?_, fun i _ ws h => by cases h⟩
  rw [List.mem_singleton] at hs
  subst hs
  obtain ⟨h1, -⟩ := exMap_like exMap List.mem_cons_self
  exact ⟨⟨h1.fits, h1.model, h1.wts, h1.cols, h1.col, h1.xi, h1.kref, h1.krefLt, fun w hw => by cases hw⟩, rfl, rfl, rfl⟩

/-- A real map for the statements about the likelihood. -/
noncomputable def exReal (w : Option (List ℝ)) : SrcMap ℝ := ⟨⟨1, 0, 0, 0, 0⟩, 1, [2, 0], [(1, 0)], [[1]], [1], [-1], w⟩

theorem exReal_like (w : Option (List ℝ)) (hw : ∀ v, w = some v → v.length = 1) : Like 1 1 w [exReal w] := by
  intro s hs
  rw [List.mem_singleton] at hs
  subst hs
  refine ⟨⟨⟨rfl, fun h => absurd h (by simp only [exReal]; decide)⟩, rfl, rfl, rfl, ?_, rfl, rfl, ?_, ?_⟩, rfl, rfl, rfl⟩
  · intro c hc; simp [exReal] at hc; subst hc; rfl
  · intro r hr; simp [exReal] at hr; subst hr; simp only [exReal]; decide
  · intro v hv; exact hw v hv

example : Like 1 1 none [exReal none] ∧ logLike [0] [2] = -2 :=
  ⟨exReal_like none (fun v h => by cases h), by simp [logLike]⟩

example : Like 1 1 (some [0]) [exReal (some [0])] ∧ val ([0] : List ℝ) 0 ≤ 0 ∧ (1e-9 : ℝ) < val [3] 0 :=
  ⟨exReal_like _ (fun v h => by cases h; rfl), by simp, by norm_num⟩

end Verif.Explicit
