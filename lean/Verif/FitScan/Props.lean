import Verif.FitScan.Lemmas
import Verif.FitUtils.Props
set_option linter.unusedSimpArgs false
set_option linter.unusedVariables false
/-
C41: a fit restricted to energy bins uses exactly the pixels of those bins.
-/
namespace Verif.FitScan
open Verif.FitUtils Spec

theorem layers_of {Ls : List (List ℝ)} (hne : ∀ L ∈ Ls, L ≠ []) :
    Layers ((List.range ((Ls.map List.length).length + 1)).map (psum (Ls.map List.length))) Ls.flatten.length := by
  refine ⟨by simp [psum], ?_, ?_⟩
  · rw [List.pairwise_iff_getElem]
    intro a b ha hb hab
    simp only [List.getElem_map, List.getElem_range]
    exact psum_lt hne hab (by simp at hb; omega)
  · rw [List.getLast?_eq_getElem?]
    simp only [List.length_map, List.length_range, Nat.add_sub_cancel]
    rw [List.getElem?_map, List.getElem?_range (by omega)]
    simp only [Option.map_some]
    rw [psum_layers, List.take_length]

/-- What the compression gives on data in layers. -/
theorem extract_layers {Ls : List (List ℝ)} (hne : ∀ L ∈ Ls, L ≠ []) :
    ∃ isEnd : Nat → Bool, Ends isEnd 0 Ls ∧
      extractNonZeroBinsByLayer Ls.flatten ((List.range ((Ls.map List.length).length + 1)).map (psum (Ls.map List.length))) =
        .ok ⟨nzPure isEnd 0 Ls.flatten, drPure isEnd 0 Ls.flatten, stopsPure isEnd 0 0 Ls.flatten⟩ := by
  have hE := ends_psum hne Ls.length le_rfl
  rw [Nat.sub_self, show psum (Ls.map List.length) 0 = 0 from rfl, List.drop_zero] at hE
  refine ⟨_, hE, ?_⟩
  unfold extractNonZeroBinsByLayer
  rw [extractLayers_eq (layers_of hne) Ls.flatten 0 1 _ (by simp)]
  · rw [extractLoop_eq]; simp
  · intro h
    have hl : 0 < Ls.length := by
      rcases Ls with _ | ⟨L, Ls⟩
      · simp at h
      · simp
    refine ⟨by simp; omega, ?_⟩
    simp only [List.getElem_map, List.getElem_range]
    have := psum_lt hne (show 0 < 1 by omega) (show 1 ≤ Ls.length by omega)
    exact lt_of_le_of_lt (Nat.zero_le _) this
  · intro k hk h1
    have : k = 0 := by omega
    subst this
    simp [psum]

/-- A cache filled with data in layers. -/
def cacheOf (Ls : List (List ℝ)) (reduced : Bool) (stops0 : List Nat) (nz0 : List Int) (dr0 : List ℝ) (a0 b0 : Nat) : Cache :=
  ⟨Ls.flatten, Ls.map List.length, reduced, stops0, nz0, dr0, a0, b0⟩

theorem setEnergyBins_ok {c : Cache} {first last : Nat} {g : Nat → Nat} (h0 : g 0 = 0) (hl : first < last)
    (hs : ∀ k, first ≤ k + 1 → k < last → c.stops[k]? = some (g (k + 1))) :
    setEnergyBins c first last = .ok { c with firstBin := g first, lastBin := g last } := by
  unfold setEnergyBins
  have hb : vget c.stops (last - 1) = .ok (g last) := by
    rw [vget_eq_ok, hs _ (by omega) (by omega)]
    rw [Nat.sub_add_cancel (by omega)]
  unfold firstIdx lastIdx
  rw [if_neg (show ¬ last = 0 by omega), hb]
  by_cases hf : first = 0
  · subst hf
    rw [if_pos rfl]
    simp [h0]
  · rw [if_neg hf]
    have ha : vget c.stops (first - 1) = .ok (g first) := by
      rw [vget_eq_ok, hs _ (by omega) (by omega), Nat.sub_add_cancel (by omega)]
    rw [ha]; rfl

theorem bins_zip {Ls Ms : List (List ℝ)} (a b : Nat) (f : List ℝ → List ℝ → List ℝ) :
    bins (List.zipWith f Ls Ms) a b = (List.zipWith f ((Ls.take b).drop a) ((Ms.take b).drop a)).flatten := by
  unfold bins
  rw [List.take_zipWith, List.drop_zipWith]

theorem red_length (L : List ℝ) : ∀ M : List ℝ, L.length = M.length → (redModel L M).length = (red L).length := by
  induction L with
  | nil => intro M h; cases M with
    | nil => simp [redModel, red, redHead]
    | cons => simp at h
  | cons d L ih =>
    intro M h
    cases M with
    | nil => simp at h
    | cons m M =>
      have := ih M (by simpa using h)
      unfold redModel red at *
      by_cases hd : (1e-15 : ℝ) < d
      · simp [redHead, List.filter_cons, hd] at *; omega
      · simp [redHead, List.filter_cons, hd] at *; omega

theorem redRest_add (L : List ℝ) : ∀ M : List ℝ, L.length = M.length → (redHead L M).sum + redRest L M = M.sum := by
  induction L with
  | nil => intro M h; cases M with
    | nil => simp [redHead, redRest]
    | cons => simp at h
  | cons d L ih =>
    intro M h
    cases M with
    | nil => simp at h
    | cons m M =>
      have := ih M (by simpa using h)
      by_cases hd : (1e-15 : ℝ) < d
      · simp [redHead, redRest, hd]; linarith
      · simp [redHead, redRest, hd]; linarith

theorem zip_lengths : ∀ {Ls Ms : List (List ℝ)} (hl : List.Forall₂ (fun L M => L.length = M.length) Ls Ms) (k : Nat),
    ((List.zipWith redModel Ls Ms).take k).flatten.length = ((Ls.map red).take k).flatten.length
  | _, _, .nil, k => by simp
  | _, _, .cons h1 h2, 0 => by simp
  | _, _, .cons h1 h2, k + 1 => by
    simp only [List.zipWith_cons_cons, List.map_cons, List.take_succ_cons, List.flatten_cons, List.length_append,
      red_length _ _ h1, zip_lengths h2 k]

theorem forall2_take {Ls Ms : List (List ℝ)} (hl : List.Forall₂ (fun L M => L.length = M.length) Ls Ms) (a b : Nat) :
    List.Forall₂ (fun L M => L.length = M.length) ((Ls.take b).drop a) ((Ms.take b).drop a) :=
  List.forall₂_drop a (List.forall₂_take b hl)

theorem flat_length : ∀ {Ls Ms : List (List ℝ)} (hl : List.Forall₂ (fun L M => L.length = M.length) Ls Ms),
    Ls.flatten.length = Ms.flatten.length
  | _, _, .nil => rfl
  | _, _, .cons h1 h2 => by simp only [List.flatten_cons, List.length_append, h1, flat_length h2]

theorem ends_last {isEnd : Nat → Bool} : ∀ {Ls : List (List ℝ)} {i : Nat} (h : Ends isEnd i Ls), Ls ≠ [] →
    isEnd (i + Ls.flatten.length - 1) = true
  | [], _, _, hn => absurd rfl hn
  | [L], i, h, _ => by
    have h0 : 0 < L.length := List.length_pos_iff.mpr h.1
    have := h.2.1 (L.length - 1) (by omega)
    simp only [List.flatten_cons, List.flatten_nil, List.append_nil]
    rw [show i + L.length - 1 = i + (L.length - 1) by omega, this]
    simp; omega
  | L :: L' :: Ls, i, h, _ => by
    have := ends_last h.2.2 (by simp)
    rw [List.flatten_cons, List.length_append, ← Nat.add_assoc]
    exact this

/-- The likelihood of layers is that of their compressed forms. -/
theorem like_layers {Ls Ms : List (List ℝ)} (hne : ∀ L ∈ Ls, L ≠ [])
    (hl : List.Forall₂ (fun L M => L.length = M.length) Ls Ms) (hpos : ∀ M ∈ Ms, ∀ m ∈ M, 0 ≤ m) :
    logLikePoisson (Ls.map red).flatten (List.zipWith redModel Ls Ms).flatten = logLikePoisson Ls.flatten Ms.flatten := by
  obtain ⟨isEnd, hE, _⟩ := extract_layers hne
  rw [← dr_layers hE, ← redM_layers hE hl]
  have hlen := flat_length hl
  unfold logLikePoisson
  rw [if_neg (by rw [redM_length _ _ _ _ _ hlen]; simp), if_neg (by simp [hlen])]
  rw [llLoop_red isEnd _ _ _ _ _ _ hlen _ le_rfl (fun _ => rfl)]
  · simp
  · intro hf
    have : Ls ≠ [] := by rintro rfl; exact hf rfl
    exact ends_last hE this
  · intro m hm
    obtain ⟨M, h1, h2⟩ := List.mem_flatten.mp hm
    exact hpos M h1 m h2

/-- The cache after `setCache` with compressed data. -/
theorem setCache_reduced {Ls : List (List ℝ)} (hne : ∀ L ∈ Ls, L ≠ []) (hn : 0 < Ls.length)
    (stops0 : List Nat) (nz0 : List Int) (dr0 : List ℝ) (a0 b0 : Nat) :
    ∃ c isEnd, setCache (cacheOf Ls true stops0 nz0 dr0 a0 b0) = .ok c ∧ Ends isEnd 0 Ls ∧
      c.useReduced = true ∧ c.npix = Ls.map List.length ∧
      c.nonZero = nzPure isEnd 0 Ls.flatten ∧ c.dataRed = (Ls.map red).flatten ∧
      c.stops.length = Ls.length ∧
      (∀ k < Ls.length, c.stops[k]? = some ((Ls.map red).take (k + 1)).flatten.length) ∧
      c.firstBin = 0 ∧ c.lastBin = (Ls.map red).flatten.length := by
  obtain ⟨isEnd, hE, he⟩ := extract_layers hne
  have hst := stops_layers (n := 0) hE
  simp only [Nat.zero_add] at hst
  have : setCache (cacheOf Ls true stops0 nz0 dr0 a0 b0) = setEnergyBin ⟨Ls.flatten, Ls.map List.length, true,
      stopsPure isEnd 0 0 Ls.flatten, nzPure isEnd 0 Ls.flatten, drPure isEnd 0 Ls.flatten, a0, b0⟩ (-1) := by
    unfold setCache cacheOf
    simp only []
    rw [setStops_eq, Res.bind_ok]
    unfold reduceModels
    simp only [Bool.not_true, Bool.false_eq_true, if_false]
    rw [he]
    rfl
  rw [this]
  unfold setEnergyBin
  rw [if_pos (by norm_num)]
  simp only [List.length_map]
  rw [setEnergyBins_ok (g := fun k => ((Ls.map red).take k).flatten.length) (by simp) hn
    (fun k _ hk => hst.2 k hk)]
  refine ⟨_, isEnd, rfl, hE, rfl, rfl, rfl, dr_layers hE, hst.1, hst.2, by simp, ?_⟩
  simp only []
  rw [List.take_of_length_le (by simp)]

/-- With compressed data: after choosing energy bins `[first, last)` the vectors used by the
fit are the compressed forms of these bins, and their likelihood is that of the full data
and the full model in these bins. -/
theorem C41_reduced (Ls Ms : List (List ℝ)) (hne : ∀ L ∈ Ls, L ≠ [])
    (hl : List.Forall₂ (fun L M => L.length = M.length) Ls Ms) (hpos : ∀ M ∈ Ms, ∀ m ∈ M, 0 ≤ m)
    (stops0 : List Nat) (nz0 : List Int) (dr0 : List ℝ) (a0 b0 : Nat)
    {first last : Nat} (h1 : first < last) (h2 : last ≤ Ls.length) :
    ∃ c c' mr d m, setCache (cacheOf Ls true stops0 nz0 dr0 a0 b0) = .ok c ∧ setEnergyBins c first last = .ok c' ∧
      sparsifyModel c.nonZero Ms.flatten = .ok mr ∧
      selected c' (fitData c') = .ok d ∧ selected c' mr = .ok m ∧
      logLikePoisson d m = logLikePoisson (bins Ls first last) (bins Ms first last) := by
  obtain ⟨c, isEnd, hc, hE, hu, hnp, hnz, hdr, hsl, hst, _, _⟩ := setCache_reduced hne (by omega) stops0 nz0 dr0 a0 b0
  have hlen := flat_length hl
  have hb := setEnergyBins_ok (c := c) (g := fun k => ((Ls.map red).take k).flatten.length) (by simp) h1
    (fun k _ hk => hst k (by omega))
  have hmr : sparsifyModel c.nonZero Ms.flatten = .ok (List.zipWith redModel Ls Ms).flatten := by
    rw [hnz, sparsifyModel_eq _ hlen, redM_layers hE hl]
  have hle : ((Ls.map red).take first).flatten.length ≤ ((Ls.map red).take last).flatten.length :=
    flatten_take_mono _ h1.le
  have hpos' : ((Ls.map red).take last).flatten.length ≠ 0 := by
    rcases Ls with _ | ⟨L, Ls⟩
    · simp at h2; omega
    · obtain ⟨l, rfl⟩ : ∃ l, last = l + 1 := ⟨last - 1, by omega⟩
      simp [red]
  refine ⟨c, _, _, bins (Ls.map red) first last, bins (List.zipWith redModel Ls Ms) first last, hc, hb, hmr, ?_, ?_, ?_⟩
  · unfold selected fitData
    simp only [hu, if_true, hdr, if_neg hpos']
    rw [slice_eq _ hle (flatten_take_le _ _), slice_flatten _ h1.le]
  · unfold selected
    simp only [if_neg hpos']
    rw [← zip_lengths hl first, ← zip_lengths hl last, slice_eq _ (flatten_take_mono _ h1.le) (flatten_take_le _ _),
      slice_flatten _ h1.le]
  · rw [bins_zip]
    have : bins (Ls.map red) first last = (((Ls.take last).drop first).map red).flatten := by
      unfold bins
      rw [← List.map_take, ← List.map_drop]
    rw [this, like_layers]
    · rfl
    · intro L h
      exact hne L (List.mem_of_mem_take (List.mem_of_mem_drop h))
    · exact forall2_take hl first last
    · intro M h
      exact hpos M (List.mem_of_mem_take (List.mem_of_mem_drop h))

example : ∃ c c' mr d m, setCache (cacheOf [[0, 3], [1, 0, 2], [0]] true [] [] [] 0 0) = .ok c ∧
      setEnergyBins c 1 3 = .ok c' ∧
      sparsifyModel c.nonZero ([[1, 2], [3, 4, 5], [6]] : List (List ℝ)).flatten = .ok mr ∧
      selected c' (fitData c') = .ok d ∧ selected c' mr = .ok m ∧
      logLikePoisson d m = logLikePoisson [1, 0, 2, 0] [3, 4, 5, 6] := by
  have := C41_reduced [[0, 3], [1, 0, 2], [0]] [[1, 2], [3, 4, 5], [6]] (by simp) (by simp)
    (by intro M hM m hm; fin_cases hM <;> fin_cases hm <;> norm_num) [] [] [] 0 0 (first := 1) (last := 3)
    (by norm_num) (by simp)
  simpa [bins] using this

/-- With compressed data: all energy bins means all of the compressed vectors. -/
theorem C41_reduced_all (Ls : List (List ℝ)) (hne : ∀ L ∈ Ls, L ≠ []) (hn : 0 < Ls.length)
    (stops0 : List Nat) (nz0 : List Int) (dr0 : List ℝ) (a0 b0 : Nat) :
    ∃ c, setCache (cacheOf Ls true stops0 nz0 dr0 a0 b0) = .ok c ∧ selected c (fitData c) = .ok (fitData c) := by
  obtain ⟨c, isEnd, hc, hE, hu, hnp, hnz, hdr, hsl, hst, hf, hla⟩ := setCache_reduced hne hn stops0 nz0 dr0 a0 b0
  refine ⟨c, hc, ?_⟩
  unfold selected fitData
  simp only [hu, if_true, hf, hla, hdr]
  have : (if (Ls.map red).flatten.length = 0 then (Ls.map red).flatten.length else (Ls.map red).flatten.length) =
    (Ls.map red).flatten.length := by split <;> rfl
  rw [this, slice_eq _ (Nat.zero_le _) le_rfl]
  unfold part
  simp

example : ∃ c, setCache (cacheOf [[0, 3], [1, 0, 2], [0]] true [] [] [] 0 0) = .ok c ∧
    selected c (fitData c) = .ok (fitData c) := C41_reduced_all _ (by simp) (by simp) _ _ _ _ _

/-- The cache after `setCache` without compression. -/
theorem setCache_full {Ls : List (List ℝ)} (hn : 0 < Ls.length)
    (stops0 : List Nat) (nz0 : List Int) (dr0 : List ℝ) (a0 b0 : Nat) :
    setCache (cacheOf Ls false stops0 nz0 dr0 a0 b0) = .ok ⟨Ls.flatten, Ls.map List.length, false,
      (List.range (Ls.length + 1)).map fun k => (Ls.take k).flatten.length, nz0, dr0, 0,
      (Ls.take (Ls.length - 1)).flatten.length⟩ := by
  have hg : ((List.range ((Ls.map List.length).length + 1)).map (psum (Ls.map List.length))) =
      (List.range (Ls.length + 1)).map fun k => (Ls.take k).flatten.length := by
    rw [List.length_map]
    exact List.map_congr_left fun k _ => psum_layers Ls k
  unfold setCache cacheOf
  simp only []
  rw [setStops_eq, Res.bind_ok, hg]
  unfold reduceModels
  simp only [Bool.not_false, if_true, Res.bind_ok]
  unfold setEnergyBin
  rw [if_pos (by norm_num)]
  simp only [List.length_map]
  rw [setEnergyBins_ok (g := fun k => (Ls.take (k - 1)).flatten.length) (by simp) hn]
  · simp
  · intro k _ hk
    simp only [List.getElem?_map, Nat.add_sub_cancel]
    rw [List.getElem?_range (by omega)]
    rfl

theorem full_bin (Ls : List (List ℝ)) (nz0 : List Int) (dr0 : List ℝ) (a b i : Nat) (hi : i < Ls.length) :
    setEnergyBin ⟨Ls.flatten, Ls.map List.length, false,
      (List.range (Ls.length + 1)).map fun k => (Ls.take k).flatten.length, nz0, dr0, a, b⟩ i =
    .ok ⟨Ls.flatten, Ls.map List.length, false,
      (List.range (Ls.length + 1)).map fun k => (Ls.take k).flatten.length, nz0, dr0,
      (Ls.take (i - 1)).flatten.length, (Ls.take i).flatten.length⟩ := by
  unfold setEnergyBin
  rw [if_neg (by omega)]
  simp only [Int.toNat_natCast]
  refine setEnergyBins_ok (g := fun k => (Ls.take (k - 1)).flatten.length) (by simp) (by omega) ?_
  intro k _ hk
  simp only [List.getElem?_map, Nat.add_sub_cancel]
  rw [List.getElem?_range (by omega)]
  rfl

/-- Without compression a fit over all energy bins leaves out the last one, and a fit in energy
bin `i > 0` uses the pixels of the bin below it. -/
theorem C41_full_violates (Ls : List (List ℝ)) (hne : ∀ L ∈ Ls, L ≠ [])
    (stops0 : List Nat) (nz0 : List Int) (dr0 : List ℝ) (a0 b0 : Nat) (hn : 1 < Ls.length) :
    ∃ c, setCache (cacheOf Ls false stops0 nz0 dr0 a0 b0) = .ok c ∧
      selected c (fitData c) = .ok (bins Ls 0 (Ls.length - 1)) ∧
      ∀ i : Nat, 0 < i → i < Ls.length → ∃ c', setEnergyBin c i = .ok c' ∧
        selected c' (fitData c') = .ok (bins Ls (i - 1) i) := by
  have hz : ∀ k, 0 < k → (Ls.take k).flatten.length ≠ 0 := by
    intro k hk
    rcases Ls with _ | ⟨L, Ls⟩
    · simp at hn
    · obtain ⟨l, rfl⟩ : ∃ l, k = l + 1 := ⟨k - 1, by omega⟩
      have h3 : 0 < L.length := List.length_pos_iff.mpr (hne L (by simp))
      simp only [List.take_succ_cons, List.flatten_cons, List.length_append]
      omega
  refine ⟨_, setCache_full (by omega) stops0 nz0 dr0 a0 b0, ?_, ?_⟩
  · unfold selected fitData
    simp only [Bool.false_eq_true, if_false]
    rw [if_neg (hz _ (by omega)), slice_eq _ (Nat.zero_le _) (flatten_take_le _ _)]
    have := slice_flatten Ls (Nat.zero_le (Ls.length - 1))
    simp only [List.take_zero, List.flatten_nil, List.length_nil] at this
    rw [this]
  · intro i hi hi2
    refine ⟨_, full_bin Ls _ _ _ _ i hi2, ?_⟩
    · unfold selected fitData
      simp only [Bool.false_eq_true, if_false, Nat.add_sub_cancel]
      rw [if_neg (hz _ hi), slice_eq _ (flatten_take_mono _ (by omega)) (flatten_take_le _ _), slice_flatten _ (by omega)]

/-- Without compression a fit in the first energy bin takes the pixels of all energy bins. -/
theorem C41_full_first_violates (Ls : List (List ℝ)) (hn : 0 < Ls.length)
    (stops0 : List Nat) (nz0 : List Int) (dr0 : List ℝ) (a0 b0 : Nat) :
    ∃ c c', setCache (cacheOf Ls false stops0 nz0 dr0 a0 b0) = .ok c ∧ setEnergyBin c 0 = .ok c' ∧
      selected c' (fitData c') = .ok Ls.flatten := by
  refine ⟨_, _, setCache_full hn stops0 nz0 dr0 a0 b0, full_bin Ls _ _ _ _ 0 hn, ?_⟩
  · unfold selected fitData
    simp [slice]

example : ∃ c, setCache (cacheOf [[0, 3], [1, 0, 2], [7]] false [] [] [] 0 0) = .ok c ∧
    selected c (fitData c) = .ok [0, 3, 1, 0, 2] := by
  obtain ⟨c, h1, h2, _⟩ := C41_full_violates [[0, 3], [1, 0, 2], [7]] (by simp) [] [] [] 0 0 (by simp)
  exact ⟨c, h1, by simpa [bins] using h2⟩

/-- The model counts reported by energy bin are the sums of the full model over the pixels of
each energy bin. -/
theorem C41_model_counts (Ls Ms : List (List ℝ)) (hne : ∀ L ∈ Ls, L ≠ [])
    (hl : List.Forall₂ (fun L M => L.length = M.length) Ls Ms) (hn : 0 < Ls.length)
    (stops0 : List Nat) (nz0 : List Int) (dr0 : List ℝ) (a0 b0 : Nat) :
    ∃ c mr, setCache (cacheOf Ls true stops0 nz0 dr0 a0 b0) = .ok c ∧
      sparsifyModel c.nonZero Ms.flatten = .ok mr ∧
      fillModelCounts mr 0 c.stops = .ok (Ms.map List.sum) := by
  obtain ⟨c, isEnd, hc, hE, hu, hnp, hnz, hdr, hsl, hst, _, _⟩ := setCache_reduced hne hn stops0 nz0 dr0 a0 b0
  refine ⟨c, _, hc, by rw [hnz, sparsifyModel_eq _ (flat_length hl), redM_layers hE hl], ?_⟩
  have hlen : Ls.length = Ms.length := hl.length_eq
  have hfold : ∀ (v : List ℝ) (s : ℝ), v.foldl (· + ·) s = s + v.sum := by
    intro v
    induction v with
    | nil => simp
    | cons a v ih => intro s; rw [List.foldl_cons, ih, List.sum_cons, add_assoc]
  have key : ∀ (k : Nat), k ≤ Ls.length →
      fillModelCounts (List.zipWith redModel Ls Ms).flatten ((Ls.map red).take (Ls.length - k)).flatten.length
        (c.stops.drop (Ls.length - k)) = .ok ((Ms.drop (Ls.length - k)).map List.sum) := by
    intro k
    induction k with
    | zero => intro _; rw [Nat.sub_zero, List.drop_of_length_le hsl.le, List.drop_of_length_le hlen.ge]; rfl
    | succ k ih =>
      intro hk
      have hlt : Ls.length - (k + 1) < Ls.length := by omega
      have hs : Ls.length - (k + 1) + 1 = Ls.length - k := by omega
      have hst' : c.stops[Ls.length - (k + 1)]'(by omega) = ((Ls.map red).take (Ls.length - k)).flatten.length := by
        have := hst _ hlt
        rw [hs, List.getElem?_eq_some_iff] at this
        exact this.2
      rw [List.drop_eq_getElem_cons (show Ls.length - (k + 1) < c.stops.length by omega),
        List.drop_eq_getElem_cons (show Ls.length - (k + 1) < Ms.length by omega), hs, fillModelCounts, hst']
      rw [← zip_lengths hl, ← zip_lengths hl, slice_eq _ (flatten_take_mono _ (by omega)) (flatten_take_le _ _),
        slice_flatten _ (by omega), Res.bind_ok, zip_lengths hl, ih (by omega), Res.bind_ok]
      have hb : bins (List.zipWith redModel Ls Ms) (Ls.length - (k + 1)) (Ls.length - k) =
          redModel Ls[Ls.length - (k + 1)] (Ms[Ls.length - (k + 1)]'(by omega)) := by
        unfold bins
        rw [← hs, List.take_add_one, List.getElem?_eq_getElem (by simp; omega), List.drop_append,
          List.drop_of_length_le (by simp)]
        simp
        rw [Nat.min_eq_left (by omega)]
        simp
      rw [hb, hfold]
      have hM : Ls[Ls.length - (k + 1)].length = (Ms[Ls.length - (k + 1)]'(by omega)).length :=
        List.Forall₂.get hl hlt (by omega)
      simp only [redModel, List.sum_append, List.sum_singleton, redRest_add _ _ hM, zero_add, List.map_cons]
  have := key Ls.length le_rfl
  simpa using this

example : ∃ c mr, setCache (cacheOf [[0, 3], [1, 0, 2], [0]] true [] [] [] 0 0) = .ok c ∧
    sparsifyModel c.nonZero ([[1, 2], [3, 4, 5], [6]] : List (List ℝ)).flatten = .ok mr ∧
    fillModelCounts mr 0 c.stops = .ok [1 + 2, 3 + (4 + 5), 6] := by
  have := C41_model_counts [[0, 3], [1, 0, 2], [0]] [[1, 2], [3, 4, 5], [6]] (by simp) (by simp) (by simp) [] [] [] 0 0
  simpa using this

end Verif.FitScan
