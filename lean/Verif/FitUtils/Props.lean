import Verif.FitUtils.Deriv
import Verif.FitUtils.Compress
import Mathlib.Analysis.Complex.ExponentialBounds
set_option linter.unusedSimpArgs false
/-
C06–C09: compression of empty bins, re-factoring of templates, and the derivatives
of the scan likelihood.
-/
open scoped BigOperators Topology

namespace Verif.FitUtils

open Spec

/-! ### C06 -/

theorem extract_whole {data : List ℝ} {ne npix : Nat} (h : WholePlanes data ne npix) :
    ∃ e, extractNonZeroBins data npix = .ok e ∧
      e.nonZero = nzPure (fun i => (i + 1) % npix = 0) 0 data ∧
      e.dataRed = drPure (fun i => (i + 1) % npix = 0) 0 data ∧
      e.stops = stopsPure (fun i => (i + 1) % npix = 0) 0 0 data := by
  have hn : npix ≠ 0 := by have := h.1; omega
  refine ⟨_, by rw [extractNonZeroBins, if_neg (by simp [hn])], ?_⟩
  rw [extractLoop_eq]
  simp

theorem whole_end {data : List ℝ} {ne npix : Nat} (h : WholePlanes data ne npix) (hne : data ≠ []) :
    decide ((0 + data.length - 1 + 1) % npix = 0) = true := by
  have : 0 < data.length := List.length_pos_iff.2 hne
  rw [show 0 + data.length - 1 + 1 = data.length by omega, h.2]
  simp

/-- C06: on whole planes the Poisson log-likelihood of the compressed data and model
is that of the full data and model — including whether it throws. -/
theorem C06_compressed_likelihood (data model : List ℝ) (ne npix : Nat)
    (h : WholePlanes data ne npix) (hm : model.length = data.length) (hpos : ∀ m ∈ model, 0 ≤ m) :
    ∃ e mr, extractNonZeroBins data npix = .ok e ∧ sparsifyModel e.nonZero model = .ok mr ∧
      logLikePoisson e.dataRed mr = logLikePoisson data model := by
  obtain ⟨e, h1, h2, h3, _⟩ := extract_whole h
  refine ⟨e, redM (fun i => (i + 1) % npix = 0) 0 0 data model, h1, ?_, ?_⟩
  · rw [h2, sparsifyModel_eq _ hm.symm]
  · unfold logLikePoisson
    rw [h3, if_neg (by rw [redM_length _ _ _ _ _ hm.symm]; simp), if_neg (by simp [hm]),
      llLoop_red _ _ _ _ _ _ _ hm.symm hpos le_rfl (fun _ => rfl) (fun hne => whole_end h hne)]
    simp

/-- The hypotheses are met by a cube with an empty plane and empty leading and
trailing pixels. -/
example : WholePlanes [0, 3, 0, 0, 0, 0, 1, 0, 2] 3 3 ∧
    ([1, 2, 0.5, 1, 1, 1, 4, 0, 2] : List ℝ).length = ([0, 3, 0, 0, 0, 0, 1, 0, 2] : List ℝ).length ∧
    ∀ m ∈ ([1, 2, 0.5, 1, 1, 1, 4, 0, 2] : List ℝ), 0 ≤ m := by
  refine ⟨⟨by norm_num, by simp⟩, by simp, ?_⟩
  intro m hm; fin_cases hm <;> norm_num

/-- The compression really merges bins there. -/
example : ∃ e, extractNonZeroBins [0, 3, 0, 0] 2 = .ok e ∧ e.dataRed = [3, 0, 0] ∧
    sparsifyModel e.nonZero [1, 2, 5, 7] = .ok [2, 1, 12] := by
  obtain ⟨e, h1, h2, h3, _⟩ := extract_whole (data := [0, 3, 0, 0]) (ne := 2) (npix := 2)
    ⟨by norm_num, by simp⟩
  refine ⟨e, h1, ?_, ?_⟩
  · rw [h3]; norm_num [drPure]
  · rw [h2, sparsifyModel_eq _ (by simp)]; norm_num [redM]

/-- The layers of `firstPixByLayer` (its first element is the start of layer 0). -/
structure Layers (firstPix : List Nat) (n : Nat) : Prop where
  start : firstPix[0]? = some 0
  increasing : firstPix.Pairwise (· < ·)
  stop : firstPix.getLast? = some n

theorem extractLayers_eq {firstPix : List Nat} {n : Nat} (hL : Layers firstPix n) :
    ∀ (ds : List ℝ) (i ilayer : Nat) (e : Extract) (_ : i + ds.length = n)
      (_ : ds ≠ [] → ∃ h : ilayer < firstPix.length, i < firstPix[ilayer])
      (_ : ∀ k, (h : k < firstPix.length) → k < ilayer → firstPix[k] ≤ i),
    extractLayersLoop firstPix i ilayer ds e =
      .ok (extractLoop (fun i => decide (i + 1 ∈ firstPix)) i ds e) := by
  intro ds
  induction ds with
  | nil => intro i il e _ _ _; simp [extractLayersLoop, extractLoop]
  | cons d ds ih =>
    intro i il e hn hf hprev
    obtain ⟨hil, hgt⟩ := hf (by simp)
    have hmono : ∀ a b (ha : a < firstPix.length) (hb : b < firstPix.length), a < b →
        firstPix[a] < firstPix[b] := fun a b ha hb hab =>
      List.pairwise_iff_getElem.1 hL.increasing a b ha hb hab
    have hlast : firstPix[firstPix.length - 1]'(by omega) = n := by
      have := hL.stop
      rw [List.getLast?_eq_getElem?] at this
      rw [List.getElem?_eq_getElem (by omega)] at this
      exact Option.some.inj this
    rw [extractLayersLoop, vget_lt _ _ hil, Res.bind_ok, extractLoop]
    by_cases hi : i + 1 = firstPix[il]
    · rw [if_pos hi]
      have hmem : i + 1 ∈ firstPix := by rw [hi]; exact List.getElem_mem hil
      rw [ih (i + 1) (il + 1) _ (by simp at hn; omega)]
      · simp [hmem]
      · intro hne
        have hlen : 0 < ds.length := List.length_pos_iff.2 hne
        have hil' : il + 1 < firstPix.length := by
          by_contra hc
          have : il = firstPix.length - 1 := by omega
          simp only [this] at hi
          rw [hlast] at hi
          simp at hn; omega
        exact ⟨hil', by rw [hi]; exact hmono _ _ _ _ (by omega)⟩
      · intro k hk hkl
        rcases Nat.lt_succ_iff_lt_or_eq.1 hkl with h | h
        · have := hprev k hk h; omega
        · subst h; omega
    · rw [if_neg hi]
      have hmem : i + 1 ∉ firstPix := by
        intro hc
        obtain ⟨k, hk, hk'⟩ := List.getElem_of_mem hc
        rcases Nat.lt_trichotomy k il with h | h | h
        · have := hprev k hk h; omega
        · subst h; omega
        · have := hmono il k hil hk h; omega
      rw [ih (i + 1) il _ (by simp at hn; omega)]
      · simp [hmem]
      · intro _; exact ⟨hil, by omega⟩
      · intro k hk hkl; have := hprev k hk hkl; omega

/-- C06, energy layers of unequal size: the same for the overload that takes the
layer boundaries explicitly. -/
theorem C06_compressed_likelihood_layers (data model : List ℝ) (firstPix : List Nat)
    (hL : Layers firstPix data.length) (hm : model.length = data.length)
    (hpos : ∀ m ∈ model, 0 ≤ m) :
    ∃ e mr, extractNonZeroBinsByLayer data firstPix = .ok e ∧
      sparsifyModel e.nonZero model = .ok mr ∧
      logLikePoisson e.dataRed mr = logLikePoisson data model := by
  have h0 : ∃ h : 0 < firstPix.length, firstPix[0] = 0 := by
    have := hL.start
    rw [List.getElem?_eq_some_iff] at this
    exact this
  obtain ⟨hlen, hz⟩ := h0
  have hlast : firstPix[firstPix.length - 1]'(by omega) = data.length := by
    have := hL.stop
    rw [List.getLast?_eq_getElem?, List.getElem?_eq_getElem (by omega)] at this
    exact Option.some.inj this
  have he : extractNonZeroBinsByLayer data firstPix =
      .ok (extractLoop (fun i => decide (i + 1 ∈ firstPix)) 0 data ⟨[], [], []⟩) := by
    refine extractLayers_eq hL data 0 1 _ (by simp) ?_ ?_
    · intro hne
      have hd : 0 < data.length := List.length_pos_iff.2 hne
      have h1 : 1 < firstPix.length := by
        by_contra hc
        have : firstPix.length = 1 := by omega
        simp only [this, Nat.sub_self] at hlast
        omega
      have := List.pairwise_iff_getElem.1 hL.increasing 0 1 hlen h1 (by omega)
      exact ⟨h1, by omega⟩
    · intro k hk hk1
      have : k = 0 := by omega
      subst this; omega
  refine ⟨_, redM (fun i => decide (i + 1 ∈ firstPix)) 0 0 data model, he, ?_, ?_⟩
  · rw [extractLoop_eq]
    simpa using sparsifyModel_eq _ hm.symm
  · rw [extractLoop_eq]
    simp only [List.nil_append]
    unfold logLikePoisson
    rw [if_neg (by rw [redM_length _ _ _ _ _ hm.symm]; simp), if_neg (by simp [hm]),
      llLoop_red _ _ _ _ _ _ _ hm.symm hpos le_rfl (fun _ => rfl)]
    · simp
    · intro hne
      have hd : 0 < data.length := List.length_pos_iff.2 hne
      have : data.length ∈ firstPix := by
        rw [← hlast]; exact List.getElem_mem _
      have h1 : 0 + data.length - 1 + 1 = data.length := by omega
      simp only [h1, decide_eq_true_eq]; exact this

example : Layers [0, 2, 5] ([0, 3, 0, 0, 1] : List ℝ).length := ⟨rfl, by decide, rfl⟩

theorem forall2_map {α β : Type} {R : α → β → Prop} {f : α → β} :
    ∀ (l : List α), (∀ a ∈ l, R a (f a)) → List.Forall₂ R l (l.map f)
  | [], _ => .nil
  | a :: l, h => .cons (h a (by simp)) (forall2_map l fun x hx => h x (by simp [hx]))

theorem forall2_eq {α β : Type} {R : α → β → Prop} {f : α → β}
    (hf : ∀ a b, R a b → b = f a) : ∀ {l : List α} {l' : List β}, List.Forall₂ R l l' → l' = l.map f
  | _, _, .nil => rfl
  | _, _, .cons h t => by rw [hf _ _ h, forall2_eq hf t]; rfl

/-- C06: compressing the summed model is summing the compressed templates, for all
normalisations (also negative ones). -/
theorem C06_compression_commutes (data fixed : List ℝ) (ts : List (List ℝ)) (ne npix : Nat)
    (h : WholePlanes data ne npix) (hf : fixed.length = data.length)
    (ht : SameLength data.length ts) :
    ∃ e fr tsr, extractNonZeroBins data npix = .ok e ∧ sparsifyModel e.nonZero fixed = .ok fr ∧
      List.Forall₂ (fun t tr => sparsifyModel e.nonZero t = .ok tr) ts tsr ∧
      ∀ (norms scratch scratchR : List ℝ), norms.length = ts.length →
        scratch.length = data.length → scratchR.length = e.dataRed.length →
        ∃ T Tr, sumModel norms ts fixed scratch 0 0 = .ok T ∧
          sumModel norms tsr fr scratchR 0 0 = .ok Tr ∧ sparsifyModel e.nonZero T = .ok Tr := by
  obtain ⟨e, h1, h2, h3, _⟩ := extract_whole h
  refine ⟨e, redM (fun i => (i + 1) % npix = 0) 0 0 data fixed,
    ts.map (redM (fun i => (i + 1) % npix = 0) 0 0 data), h1, ?_, ?_, ?_⟩
  · rw [h2, sparsifyModel_eq _ hf.symm]
  · refine forall2_map ts fun t htm => ?_
    rw [h2, sparsifyModel_eq _ (ht t htm).symm]
  · intro norms scratch scratchR hn hs hsr
    obtain ⟨T, a1, a2, a3⟩ := addTemplates_red (fun i => (i + 1) % npix = 0) data norms ts fixed ht hf
    refine ⟨T, redM (fun i => (i + 1) % npix = 0) 0 0 data T, ?_, ?_, ?_⟩
    · rw [sumModel_full (by omega) (by omega), a1]
    · rw [sumModel_full (by rw [redM_length _ _ _ _ _ hf.symm, hsr, h3]) (by simp [hn]), a3]
    · rw [h2, sparsifyModel_eq _ a2.symm]

/-- C06, as the scan uses it: with compressed data, templates and fixed part the
scan log-likelihood is the one on the full cubes, at every normalisation vector with
a non-negative model, with or without prior. -/
theorem C06_compressed_scan_likelihood (data fixed : List ℝ) (ts : List (List ℝ)) (ne npix : Nat)
    (h : WholePlanes data ne npix) (hf : fixed.length = data.length)
    (ht : SameLength data.length ts) :
    ∃ e fr tsr, extractNonZeroBins data npix = .ok e ∧ sparsifyModel e.nonZero fixed = .ok fr ∧
      List.Forall₂ (fun t tr => sparsifyModel e.nonZero t = .ok tr) ts tsr ∧
      ∀ (prior : Option MVPrior) (norms scratch scratchR : List ℝ), norms.length = ts.length →
        scratch.length = data.length → scratchR.length = e.dataRed.length →
        (∀ k < data.length, 0 ≤ modelAt norms ts fixed k) →
        getLogLikelihood e.dataRed norms tsr fr prior none scratchR 0 0 =
          getLogLikelihood data norms ts fixed prior none scratch 0 0 := by
  obtain ⟨e, fr, tsr, h1, h2, h3, h4⟩ := C06_compression_commutes data fixed ts ne npix h hf ht
  refine ⟨e, fr, tsr, h1, h2, h3, ?_⟩
  intro prior norms scratch scratchR hn hs hsr hpos
  obtain ⟨T, Tr, a1, a2, a3⟩ := h4 norms scratch scratchR hn hs hsr
  obtain ⟨e', b1, b2, b3, _⟩ := extract_whole h
  rw [h1] at b1
  obtain rfl : e = e' := Res.ok.inj b1
  obtain ⟨T', c1, c2, c3⟩ := sumModel_ok (norms := norms) (ts := ts) (fixed := fixed)
    (total := scratch) (first := 0) (last := 0) (by omega) (by omega) (by simp [rangeStop])
    (by simp [rangeStop]) (by intro t htm; rw [ht t htm]; simp [rangeStop]; omega)
  rw [a1] at c1
  obtain rfl : T = T' := Res.ok.inj c1
  have hTpos : ∀ m ∈ T, 0 ≤ m := by
    intro m hm
    obtain ⟨k, hk, rfl⟩ := List.getElem_of_mem hm
    rw [← val_lt hk, c3, if_pos ⟨by omega, by simp [rangeStop]; omega⟩]
    exact hpos k (by omega)
  obtain ⟨e'', mr, d1, d2, d3⟩ := C06_compressed_likelihood data T ne npix h (by omega) hTpos
  rw [h1] at d1
  obtain rfl : e = e'' := Res.ok.inj d1
  rw [a3] at d2
  obtain rfl : Tr = mr := Res.ok.inj d2
  have hs0 : ∀ l : List ℝ, slice l 0 (rangeStop l.length 0) = .ok l := by
    intro l; simp [slice, rangeStop]
  unfold getLogLikelihood
  simp only [hs0, Res.bind_ok, a1, a2, d3]

/-- The hypotheses hold for a cube with one template. -/
example : WholePlanes [0, 3, 0, 0] 2 2 ∧ SameLength ([0, 3, 0, 0] : List ℝ).length [[1, 1, 2, 0]] ∧
    ∀ k < 4, 0 ≤ modelAt [2] [[1, 1, 2, 0]] [1, 0, 0, 0] k := by
  refine ⟨⟨by norm_num, by simp⟩, by simp [SameLength], ?_⟩
  intro k hk
  have : k = 0 ∨ k = 1 ∨ k = 2 ∨ k = 3 := by omega
  rcases this with rfl | rfl | rfl | rfl <;> norm_num [modelAt, tmplSum, val]

/-! ### C07 -/

/-- C07, proved part: the weighted compressed likelihood equals the full one at every
model that is, in the empty pixels of each plane, a multiple of the reference model
used to average the weights; in particular at the reference model itself. -/
theorem C07_weighted_compression_partial (data weights ref model : List ℝ) (c : Nat → ℝ)
    (ne npix : Nat) (h : WholePlanes data ne npix) (hw : weights.length = data.length)
    (hr : ref.length = data.length) (hm : model.length = data.length)
    (hwb : ∀ w ∈ weights, 0 ≤ w ∧ w ≤ 1e6) (hrp : ∀ m ∈ ref, 0 ≤ m) (hmp : ∀ m ∈ model, 0 ≤ m)
    (hprop : ∀ k < data.length, val data k ≤ 1e-15 → val model k = c (k / npix) * val ref k) :
    ∃ e mr wr, extractNonZeroBins data npix = .ok e ∧ sparsifyModel e.nonZero model = .ok mr ∧
      sparsifyWeights e.nonZero weights ref = .ok wr ∧
      logLikePoissonW e.dataRed mr wr = logLikePoissonW data model weights := by
  obtain ⟨e, h1, h2, h3, _⟩ := extract_whole h
  refine ⟨e, redM (fun i => (i + 1) % npix = 0) 0 0 data model,
    redW (fun i => (i + 1) % npix = 0) 0 0 0 data weights ref, h1, ?_, ?_, ?_⟩
  · rw [h2, sparsifyModel_eq _ hm.symm]
  · rw [h2, sparsifyWeights_eq _ hr.symm hw.symm]
  · unfold logLikePoissonW
    rw [h3, if_neg (by rw [redM_length _ _ _ _ _ hm.symm]; simp),
      if_neg (by rw [redW_length _ _ _ _ _ _ _ hr.symm hw.symm]; simp),
      if_neg (by simp [hm]), if_neg (by simp [hw]),
      llLoopW_red (fun i => (i + 1) % npix = 0) (fun k => c (k / npix)) data weights ref model 0 0 0 0 0 0 0
        hm.symm hw.symm hr.symm hmp hrp hwb]
    · simp
    · intro k _ hk
      have hk : ¬ (k + 1) % npix = 0 := by simpa using hk
      have : (k + 1) / npix = k / npix := by
        rw [Nat.succ_div, if_neg (by rwa [Nat.dvd_iff_mod_eq_zero]), Nat.add_zero]
      simp [this]
    · intro k hk hd
      simpa using hprop k hk (not_lt.1 hd)
    · simp
    · simp
    · rfl
    · simp
    · simp
    · rfl
    · intro hne; exact whole_end h hne

/-- The hypotheses at the reference model, with unequal weights in empty pixels. -/
example : WholePlanes [0, 0, 2, 0] 2 2 ∧
    (∀ w ∈ ([0, 1, 0.5, 1] : List ℝ), 0 ≤ w ∧ w ≤ 1e6) ∧
    (∀ k < 4, val [0, 0, 2, 0] k ≤ 1e-15 →
      val [2, 6, 5, 3] k = (fun e => if e = 0 then 2 else 1 : Nat → ℝ) (k / 2) * val [1, 3, 2, 3] k) := by
  refine ⟨⟨by norm_num, by simp⟩, ?_, ?_⟩
  · intro m hm; fin_cases hm <;> norm_num
  · intro k hk
    have : k = 0 ∨ k = 1 ∨ k = 2 ∨ k = 3 := by omega
    rcases this with rfl | rfl | rfl | rfl <;> norm_num [val]

/-- C07 is false in general: with empty pixels of different weight, a model whose
distribution over the empty pixels differs from the reference one gets another
likelihood after compression (here 0 instead of −1). -/
theorem C07_violates : ∃ (data weights ref model : List ℝ) (e : Extract) (mr wr : List ℝ),
    WholePlanes data 1 2 ∧ (∀ w ∈ weights, 0 ≤ w ∧ w ≤ 1) ∧ (∀ m ∈ ref, 0 < m) ∧
    (∀ m ∈ model, 0 ≤ m) ∧
    extractNonZeroBins data 2 = .ok e ∧ sparsifyModel e.nonZero model = .ok mr ∧
    sparsifyWeights e.nonZero weights ref = .ok wr ∧
    logLikePoissonW data model weights = .ok 0 ∧ logLikePoissonW e.dataRed mr wr = .ok (-1) := by
  have hW : WholePlanes [0, 0] 1 2 := ⟨by norm_num, by simp⟩
  obtain ⟨e, h1, h2, h3, _⟩ := extract_whole hW
  have e1 : e.dataRed = [0] := by rw [h3]; norm_num [drPure]
  refine ⟨[0, 0], [0, 1], [1, 1], [2, 0], e, [2], [1 / 2], hW, ?_, ?_, ?_, h1, ?_, ?_, ?_, ?_⟩
  · intro m hm; fin_cases hm <;> norm_num
  · intro m hm; fin_cases hm <;> norm_num
  · intro m hm; fin_cases hm <;> norm_num
  · rw [h2, sparsifyModel_eq _ (by simp)]; norm_num [redM]
  · rw [h2, sparsifyWeights_eq _ (by simp) (by simp)]; norm_num [redW]
  · norm_num [logLikePoissonW, llLoopW]
  · rw [e1]; norm_num [logLikePoissonW, llLoopW]

/-! ### C08 -/

/-- The normalisations of the free templates, in order. -/
def freeOf {α : Type} : List α → List Bool → List α
  | x :: xs, f :: fs => if f then x :: freeOf xs fs else freeOf xs fs
  | _, _ => []

theorem val_axpy {a b : List ℝ} {s : ℝ} (h : a.length = b.length) (k : Nat) :
    val (List.zipWith (fun a b => 1 * a + s * b) a b) k = val a k + s * val b k := by
  unfold val
  rw [List.getElem?_zipWith]
  by_cases hk : k < a.length
  · simp [List.getElem?_eq_getElem hk, List.getElem?_eq_getElem (h ▸ hk : k < b.length)]
  · simp [List.getElem?_eq_none (not_lt.1 hk), List.getElem?_eq_none (h ▸ not_lt.1 hk : b.length ≤ k)]

theorem refactorLoop_ok (scales : List ℝ) : ∀ (ts : List (List ℝ)) (free : List Bool) (i : Nat)
    (tout : List (List ℝ)) (fixed sout : List ℝ) (norms : List ℝ) (_ : ts.length = free.length)
    (_ : norms.length = ts.length) (_ : i + ts.length ≤ scales.length)
    (_ : SameLength fixed.length ts)
    (_ : ∀ k < ts.length, free[k]? = some false → val norms k = val scales (i + k)),
    ∃ fixed', refactorLoop scales i ts free (tout, fixed, sout) =
        .ok (tout ++ freeOf ts free, fixed', sout ++ freeOf ((scales.drop i).take ts.length) free) ∧
      fixed'.length = fixed.length ∧
      ∀ k, modelAt norms ts fixed k = modelAt (freeOf norms free) (freeOf ts free) fixed' k := by
  intro ts
  induction ts with
  | nil =>
    intro free i tout fixed sout norms h1 h2 h3 h4 h5
    refine ⟨fixed, ?_, rfl, ?_⟩
    · cases free <;> simp [refactorLoop, freeOf]
    · intro k
      have hn : norms = [] := List.length_eq_zero_iff.1 (by simpa using h2)
      subst hn
      cases free <;> simp [modelAt, tmplSum, freeOf]
  | cons t ts ih =>
    intro free i tout fixed sout norms h1 h2 h3 h4 h5
    match free, norms, h1, h2 with
    | f :: fs, n :: ns, h1, h2 =>
      have hi : i < scales.length := by simp at h3; omega
      have hdrop : (scales.drop i).take (t :: ts).length =
          val scales i :: (scales.drop (i + 1)).take ts.length := by
        rw [List.drop_eq_getElem_cons hi, val_lt hi, List.length_cons, List.take_succ_cons]
      cases f with
      | true =>
        obtain ⟨fixed', a1, a2, a3⟩ := ih fs (i + 1) (tout ++ [t]) fixed (sout ++ [val scales i]) ns
          (by simpa using h1) (by simpa using h2) (by simp at h3; omega)
          (fun t' h' => h4 t' (by simp [h'])) (by
            intro k hk hf
            have := h5 (k + 1) (by simpa using hk) (by simpa using hf)
            rwa [val_cons_succ, show i + (k + 1) = i + 1 + k by omega] at this)
        refine ⟨fixed', ?_, a2, ?_⟩
        · rw [refactorLoop, vget_val hi, Res.bind_ok, if_pos rfl, a1, hdrop]
          simp [freeOf]
        · intro k
          have := a3 k
          simp only [modelAt, freeOf, if_true, tmplSum] at this ⊢
          linarith
      | false =>
        have htl : t.length = fixed.length := h4 t (by simp)
        have hn : n = val scales i := by
          have := h5 0 (by simp) (by simp)
          simpa using this
        obtain ⟨fixed', a1, a2, a3⟩ := ih fs (i + 1) tout
          (List.zipWith (fun a b => 1 * a + val scales i * b) fixed t) sout ns
          (by simpa using h1) (by simpa using h2) (by simp at h3; omega)
          (fun t' h' => by rw [h4 t' (by simp [h'])]; simp [htl]) (by
            intro k hk hf
            have := h5 (k + 1) (by simpa using hk) (by simpa using hf)
            rwa [val_cons_succ, show i + (k + 1) = i + 1 + k by omega] at this)
        refine ⟨fixed', ?_, by rw [a2]; simp [htl], ?_⟩
        · rw [refactorLoop, vget_val hi, Res.bind_ok]
          simp only [Bool.false_eq_true, if_false]
          rw [vectorAdd, if_neg (by simp [htl]), Res.bind_ok, a1, hdrop]
          simp [freeOf]
        · intro k
          have := a3 k
          simp only [modelAt, freeOf, Bool.false_eq_true, if_false, tmplSum,
            val_axpy htl.symm] at this ⊢
          rw [hn]; linarith

theorem freeOf_length {α β : Type} : ∀ (a : List α) (b : List β) (f : List Bool),
    a.length = b.length → (freeOf a f).length = (freeOf b f).length
  | [], [], _, _ => by simp [freeOf]
  | a :: as, b :: bs, [], _ => by simp [freeOf]
  | a :: as, b :: bs, f :: fs, h => by
    have := freeOf_length as bs fs (by simpa using h)
    cases f <;> simp [freeOf, this]

theorem tmplSum_append : ∀ (ns : List ℝ) (ts : List (List ℝ)) (x : ℝ) (t : List ℝ) (k : Nat)
    (_ : ns.length = ts.length),
    tmplSum (ns ++ [x]) (ts ++ [t]) k = tmplSum ns ts k + x * val t k
  | [], [], x, t, k, _ => by simp [tmplSum]
  | n :: ns, u :: ts, x, t, k, h => by
    have := tmplSum_append ns ts x t k (by simpa using h)
    simp [tmplSum, this]; ring

theorem freeOf_mem {α : Type} : ∀ {l : List α} {f : List Bool} {x : α}, x ∈ freeOf l f → x ∈ l
  | [], f, x, h => by cases f <;> simp [freeOf] at h
  | a :: l, [], x, h => by simp [freeOf] at h
  | a :: l, f :: fs, x, h => by
    cases f with
    | true =>
      simp [freeOf] at h
      rcases h with h | h
      · simp [h]
      · simp [freeOf_mem h]
    | false =>
      simp [freeOf] at h
      simp [freeOf_mem h]

/-- C08: moving the non-free templates, at their scale factors, into the fixed part
leaves the summed model unchanged in every bin, whatever values the free
normalisations take. -/
theorem C08_refactor_preserves_model (ts : List (List ℝ)) (fixed scales norms scratch scratch' : List ℝ)
    (free : List Bool) (ht : SameLength fixed.length ts) (hf : ts.length = free.length)
    (hs : scales.length = ts.length) (hn : norms.length = ts.length)
    (hscr : scratch.length = fixed.length) (hscr' : scratch'.length = fixed.length)
    (hagree : ∀ k < ts.length, free[k]? = some false → val norms k = val scales k) :
    ∃ tout fixed', refactorModels ts fixed scales free none =
        .ok (tout, fixed', freeOf scales free) ∧
      ∃ T, sumModel norms ts fixed scratch 0 0 = .ok T ∧
        sumModel (freeOf norms free) tout fixed' scratch' 0 0 = .ok T := by
  obtain ⟨fixed', a1, a2, a3⟩ := refactorLoop_ok scales ts free 0 [] fixed [] norms hf hn
    (by omega) ht (by simpa using hagree)
  refine ⟨freeOf ts free, fixed', ?_, ?_⟩
  · rw [refactorModels, if_neg (by simp [hf]), a1]
    simp [List.take_of_length_le (Nat.le_of_eq hs)]
  · obtain ⟨T, b1, b2, b3⟩ := sumModel_ok (norms := norms) (ts := ts) (fixed := fixed)
      (total := scratch) (first := 0) (last := 0) hscr.symm hn.symm (by simp [rangeStop])
      (by simp [rangeStop]) (by intro t h'; rw [ht t h']; simp [rangeStop, hscr])
    obtain ⟨T', c1, c2, c3⟩ := sumModel_ok (norms := freeOf norms free) (ts := freeOf ts free)
      (fixed := fixed') (total := scratch') (first := 0) (last := 0) (by omega)
      (freeOf_length _ _ _ hn.symm) (by simp [rangeStop]) (by simp [rangeStop])
      (by intro t h'; rw [ht t (freeOf_mem h')]; simp [rangeStop, hscr'])
    refine ⟨T, b1, ?_⟩
    rw [c1]
    congr 1
    apply ext_val (by omega)
    intro k hk
    rw [b3, c3, if_pos ⟨by omega, by simp [rangeStop]; omega⟩,
      if_pos ⟨by omega, by simp [rangeStop]; omega⟩, a3]

/-- C08: adding a test source appends it with normalisation zero, which leaves the
summed model unchanged; at normalisation `x` it adds `x` times the test template. -/
theorem C08_test_source (ts : List (List ℝ)) (fixed scales scratch scratch' test : List ℝ)
    (free : List Bool) (ht : SameLength fixed.length ts) (hf : ts.length = free.length)
    (hs : scales.length = ts.length) (htest : test.length = fixed.length)
    (hscr : scratch.length = fixed.length) (hscr' : scratch'.length = fixed.length) :
    ∃ tout fixed', refactorModels ts fixed scales free (some test) =
        .ok (tout, fixed', freeOf scales free ++ [0]) ∧
      ∃ T, sumModel scales ts fixed scratch 0 0 = .ok T ∧
        sumModel (freeOf scales free ++ [0]) tout fixed' scratch' 0 0 = .ok T ∧
        ∀ x, ∃ T', sumModel (freeOf scales free ++ [x]) tout fixed' scratch' 0 0 = .ok T' ∧
          ∀ k < fixed.length, val T' k = val T k + x * val test k := by
  obtain ⟨fixed', a1, a2, a3⟩ := refactorLoop_ok scales ts free 0 [] fixed [] scales hf hs
    (by omega) ht (by intro k _ _; simp)
  refine ⟨freeOf ts free ++ [test], fixed', ?_, ?_⟩
  · rw [refactorModels, if_neg (by simp [hf]), a1]
    simp [List.take_of_length_le (Nat.le_of_eq hs)]
  · have hl : (freeOf scales free).length = (freeOf ts free).length := freeOf_length _ _ _ hs
    obtain ⟨T, b1, b2, b3⟩ := sumModel_ok (norms := scales) (ts := ts) (fixed := fixed)
      (total := scratch) (first := 0) (last := 0) hscr.symm hs.symm (by simp [rangeStop])
      (by simp [rangeStop]) (by intro t h'; rw [ht t h']; simp [rangeStop, hscr])
    have hx : ∀ x, ∃ T', sumModel (freeOf scales free ++ [x]) (freeOf ts free ++ [test]) fixed' scratch' 0 0
        = .ok T' ∧ T'.length = fixed.length ∧ ∀ k < fixed.length, val T' k = val T k + x * val test k := by
      intro x
      obtain ⟨T', c1, c2, c3⟩ := sumModel_ok (norms := freeOf scales free ++ [x])
        (ts := freeOf ts free ++ [test])
        (fixed := fixed') (total := scratch') (first := 0) (last := 0) (by omega)
        (by simp [hl]) (by simp [rangeStop]) (by simp [rangeStop])
        (by
          intro t h'
          simp only [List.mem_append, List.mem_singleton] at h'
          rcases h' with h' | rfl
          · rw [ht t (freeOf_mem h')]; simp [rangeStop, hscr']
          · simp [rangeStop, hscr', htest])
      refine ⟨T', c1, by omega, ?_⟩
      intro k hk
      rw [b3, c3, if_pos ⟨by omega, by simp [rangeStop]; omega⟩,
        if_pos ⟨by omega, by simp [rangeStop]; omega⟩, a3]
      simp only [modelAt, tmplSum_append _ _ _ _ _ hl]; ring
    refine ⟨T, b1, ?_, fun x => ?_⟩
    · obtain ⟨T', c1, c2, c3⟩ := hx 0
      rw [c1]; congr 1
      apply ext_val (by omega)
      intro k hk
      rw [c3 k (by omega)]; ring
    · obtain ⟨T', c1, _, c3⟩ := hx x
      exact ⟨T', c1, c3⟩

/-- Concrete case: two templates, the second one fixed at 3. -/
example : refactorModels [[1, 2], [3, 4]] [5, 6] [2, 3] [true, false] (some [7, 7]) =
    .ok ([[1, 2], [7, 7]], [14, 18], [2, 0]) := by
  norm_num [refactorModels, refactorLoop, vget, vectorAdd]

/-! ### C09 -/

/-- C09, the value: the log-likelihood is the sum over the selected bins, written out,
plus the prior. -/
theorem C09_value (data norms : List ℝ) (ts : List (List ℝ)) (fixed scratch : List ℝ)
    (weights : Option (List ℝ)) (prior : Option MVPrior) (first last : Nat)
    (sh : Shapes data norms ts fixed weights scratch first last)
    (hp : ∀ k, InRange data.length first last k → 0 ≤ modelAt norms ts fixed k ∧
      ((1e-9 : ℝ) < val data k * weightAt weights k → 0 < modelAt norms ts fixed k)) :
    getLogLikelihood data norms ts fixed prior weights scratch first last =
      .ok (∑ k ∈ Finset.Ico first (if last = 0 then data.length else last),
        ((if (1e-9 : ℝ) < val data k * weightAt weights k then
            val data k * weightAt weights k * Real.log (modelAt norms ts fixed k) else 0) -
          modelAt norms ts fixed k * weightAt weights k) +
        (prior.map (fun p => p.logLikelihood norms)).getD 0) := by
  rw [getLL_eq sh hp, Finset.sum_Ico_eq_sum_range]
  rfl

/-- The hypotheses of `C09_value` hold for one bin out of two. -/
example : getLogLikelihood [3, 5] [2] [[1, 1]] [0, 0] none none [0, 0] 1 2 =
    .ok (5 * Real.log 2 - 2) := by
  rw [C09_value [3, 5] [2] [[1, 1]] [0, 0] [0, 0] none none 1 2
    ⟨rfl, rfl, rfl, by simp [SameLength], by simp, by simp [lastSel], by simp⟩]
  · norm_num [weightAt, val, modelAt, tmplSum]
  · intro k hk
    have : k = 1 := by have h1 := hk.1; have := hk.2; simp [lastSel] at this; omega
    subst this
    norm_num [modelAt, tmplSum, val]

/-- C09, gradient: near the current normalisations `getLogLikelihood` returns a value
`F x` as function of the `i`-th normalisation, and the `i`-th gradient element is the
derivative of `-F` at the current one.  All selected bins; weights and prior
optional.  A bin may have zero model only if it has no data and the template is
zero there. -/
theorem C09_gradient (data norms : List ℝ) (ts : List (List ℝ)) (fixed scratch : List ℝ)
    (weights : Option (List ℝ)) (prior : Option MVPrior) (first last i : Nat)
    (sh : Shapes data norms ts fixed weights scratch first last) (hi : i < norms.length)
    (hprior : ∀ p, prior = some p → SymPrior p)
    (hdw : ∀ k, InRange data.length first last k → 0 ≤ val data k ∧
      (val data k * weightAt weights k = 0 ∨ 1e-9 < val data k * weightAt weights k))
    (hm : ∀ k, InRange data.length first last k → 0 < modelAt norms ts fixed k ∨
      (modelAt norms ts fixed k = 0 ∧ val data k = 0 ∧ tmplAt ts i k = 0)) :
    ∃ (g : ℝ) (F : ℝ → ℝ), gradientAt data norms ts fixed prior weights scratch first last i = .ok g ∧
      (∀ᶠ x in 𝓝 (val norms i),
        getLogLikelihood data (norms.set i x) ts fixed prior weights scratch first last
          = .ok (F x)) ∧
      HasDerivAt (fun x => - F x) g (val norms i) := by
  have hi' : i < ts.length := by rw [sh.norms]; exact hi
  refine ⟨_, fun x => ∑ k ∈ Finset.range (rangeStop data.length last - first),
        term (val data (first + k)) (modelAt (norms.set i x) ts fixed (first + k))
          (weightAt weights (first + k)) +
        (prior.map (fun p => p.logLikelihood (norms.set i x))).getD 0,
    gradient_eq hi sh ?_, ?_, ?_⟩
  · intro k hk
    rcases hm k hk with h | h
    · exact .inr h
    · exact .inl (le_of_eq h.2.1)
  · have hev : ∀ᶠ x in 𝓝 (val norms i), ∀ k ∈ Finset.Ico first (rangeStop data.length last),
        0 ≤ modelAt (norms.set i x) ts fixed k ∧
        ((1e-9 : ℝ) < val data k * weightAt weights k → 0 < modelAt (norms.set i x) ts fixed k) := by
      rw [Filter.eventually_all_finset]
      intro k hk
      have hk := Finset.mem_Ico.1 hk
      simp only [modelAt_set hi hi']
      rcases hm k hk with h | ⟨h1, h2, h3⟩
      · filter_upwards [eventually_pos h] with x hx
        exact ⟨hx.le, fun _ => hx⟩
      · refine Filter.Eventually.of_forall fun x => ?_
        rw [h1, h2, h3]; norm_num
    filter_upwards [hev] with x hx
    exact getLL_eq (shapes_set sh) fun k hk => hx k (Finset.mem_Ico.2 hk)
  · have h1 : HasDerivAt (fun x => ∑ k ∈ Finset.range (rangeStop data.length last - first),
        term (val data (first + k)) (modelAt (norms.set i x) ts fixed (first + k))
          (weightAt weights (first + k)))
        (∑ k ∈ Finset.range (rangeStop data.length last - first),
          -(weightAt weights (first + k) *
          (if val data (first + k) ≤ 0 then 1
            else 1 - val data (first + k) / modelAt norms ts fixed (first + k)) *
          tmplAt ts i (first + k))) (val norms i) := by
      refine HasDerivAt.fun_sum fun k hk => ?_
      have hk := Finset.mem_range.1 hk
      have hr : InRange data.length first last (first + k) := ⟨by omega, by rw [← rangeStop_eq]; omega⟩
      simp only [modelAt_set hi hi']
      have hd := hdw _ hr
      have hpos : (1e-9 : ℝ) < val data (first + k) * weightAt weights (first + k) →
          0 < modelAt norms ts fixed (first + k) := by
        intro h
        rcases hm _ hr with h' | ⟨_, h2, _⟩
        · exact h'
        · rw [h2] at h; norm_num at h
      refine (hasDerivAt_term (w := weightAt weights (first + k)) (t := tmplAt ts i (first + k))
        (x0 := val norms i) hpos).congr_deriv ?_
      generalize val data (first + k) = d at *
      generalize weightAt weights (first + k) = w at *
      generalize modelAt norms ts fixed (first + k) = m at *
      generalize tmplAt ts i (first + k) = t at *
      rcases hd.1.lt_or_eq with hd0 | hd0
      · rw [if_neg (not_le.2 hd0)]
        rcases hd.2 with h | h
        · have hw0 : w = 0 := by
            rcases mul_eq_zero.1 h with h | h
            · linarith
            · exact h
          simp [hw0]
        · rw [if_pos h]
          have := hpos h
          field_simp; ring
      · rw [← hd0, zero_mul, if_neg (by norm_num), if_pos le_rfl]; ring
    have h2 : HasDerivAt (fun x => (prior.map (fun p => p.logLikelihood (norms.set i x))).getD 0)
        (-((prior.map (fun p => p.gradient norms i)).getD 0)) (val norms i) := by
      cases prior with
      | none => simpa using hasDerivAt_const (val norms i) (0 : ℝ)
      | some p => simpa using hasDerivAt_prior (hprior p rfl) hi
    refine ((h1.add h2).neg).congr_deriv ?_
    rw [Finset.sum_neg_distrib]; ring

/-- C09, Hessian: element `(i,j)` is the derivative of the `i`-th gradient element
with respect to the `j`-th normalisation. -/
theorem C09_hessian (data norms : List ℝ) (ts : List (List ℝ)) (fixed scratch : List ℝ)
    (weights : Option (List ℝ)) (prior : Option MVPrior) (first last i j : Nat)
    (sh : Shapes data norms ts fixed weights scratch first last) (hi : i < norms.length)
    (hj : j < norms.length)
    (hm : ∀ k, InRange data.length first last k → val data k ≤ 0 ∨ 0 < modelAt norms ts fixed k) :
    ∃ (h : ℝ) (G : ℝ → ℝ), hessianAt data norms ts fixed prior weights scratch first last i j = .ok h ∧
      (∀ᶠ x in 𝓝 (val norms j),
        gradientAt data (norms.set j x) ts fixed prior weights scratch first last i
          = .ok (G x)) ∧
      HasDerivAt G h (val norms j) := by
  have hj' : j < ts.length := by rw [sh.norms]; exact hj
  refine ⟨_, fun x => ∑ k ∈ Finset.range (rangeStop data.length last - first),
        weightAt weights (first + k) *
          (if val data (first + k) ≤ 0 then 1
            else 1 - val data (first + k) / modelAt (norms.set j x) ts fixed (first + k)) *
          tmplAt ts i (first + k) +
        (prior.map (fun p => p.gradient (norms.set j x) i)).getD 0,
    hessian_eq hi hj sh hm, ?_, ?_⟩
  · have hev : ∀ᶠ x in 𝓝 (val norms j), ∀ k ∈ Finset.Ico first (rangeStop data.length last),
        val data k ≤ 0 ∨ 0 < modelAt (norms.set j x) ts fixed k := by
      rw [Filter.eventually_all_finset]
      intro k hk
      have hk := Finset.mem_Ico.1 hk
      simp only [modelAt_set hj hj']
      rcases hm k hk with h | h
      · exact Filter.Eventually.of_forall fun x => .inl h
      · filter_upwards [eventually_pos h] with x hx
        exact .inr hx
    filter_upwards [hev] with x hx
    exact gradient_eq (by simpa using hi) (shapes_set sh) fun k hk => hx k (Finset.mem_Ico.2 hk)
  · have h1 : HasDerivAt (fun x => ∑ k ∈ Finset.range (rangeStop data.length last - first),
        weightAt weights (first + k) *
          (if val data (first + k) ≤ 0 then 1
            else 1 - val data (first + k) / modelAt (norms.set j x) ts fixed (first + k)) *
          tmplAt ts i (first + k))
        (∑ k ∈ Finset.range (rangeStop data.length last - first),
        weightAt weights (first + k) *
          (if val data (first + k) ≤ 0 then 0
            else val data (first + k) /
              (modelAt norms ts fixed (first + k) * modelAt norms ts fixed (first + k))) *
          tmplAt ts i (first + k) * tmplAt ts j (first + k)) (val norms j) := by
      refine HasDerivAt.fun_sum fun k hk => ?_
      have hk := Finset.mem_range.1 hk
      have hr : InRange data.length first last (first + k) := ⟨by omega, by rw [← rangeStop_eq]; omega⟩
      simp only [modelAt_set hj hj']
      have hmk := hm _ hr
      generalize val data (first + k) = d at *
      generalize weightAt weights (first + k) = w at *
      generalize modelAt norms ts fixed (first + k) = m at *
      generalize tmplAt ts i (first + k) = t at *
      generalize tmplAt ts j (first + k) = u at *
      by_cases hd : d ≤ 0
      · simp only [if_pos hd]
        refine (hasDerivAt_const (val norms j) (w * 1 * t)).congr_deriv ?_
        ring
      · simp only [if_neg hd]
        have hpos : 0 < m := by
          rcases hmk with h | h
          · exact absurd h hd
          · exact h
        have ha := hasDerivAt_affine m u (val norms j)
        have hne : m + (val norms j - val norms j) * u ≠ 0 := by simp; linarith
        have hdiv := (hasDerivAt_const (val norms j) d).fun_div ha hne
        have := ((hdiv.const_sub 1).const_mul w).mul_const t
        refine this.congr_deriv ?_
        simp only [sub_self, zero_mul, add_zero]
        field_simp; ring
    have h2 : HasDerivAt (fun x => (prior.map (fun p => p.gradient (norms.set j x) i)).getD 0)
        ((prior.map (fun p => mat p.hessian i j)).getD 0) (val norms j) := by
      cases prior with
      | none => simpa using hasDerivAt_const (val norms j) (0 : ℝ)
      | some p => simpa using hasDerivAt_priorGrad hj
    exact h1.add h2

/-- The hypotheses are met: two bins, one empty, two templates, weights and a
prior. -/
example : Shapes [3, 0] [1, 2] [[1, 2], [0, 1]] [1, 1] (some [1, 0.5]) [0, 0] 0 0 ∧
    (∀ k, InRange 2 0 0 k → 0 ≤ val [3, 0] k ∧
      (val [3, 0] k * weightAt (some [1, 0.5]) k = 0 ∨
        1e-9 < val [3, 0] k * weightAt (some [1, 0.5]) k)) ∧
    (∀ k, InRange 2 0 0 k → 0 < modelAt [1, 2] [[1, 2], [0, 1]] [1, 1] k) ∧
    SymPrior ⟨[1, 1], [[2, 1], [1, 3]]⟩ := by
  refine ⟨⟨rfl, rfl, rfl, by simp [SameLength], by rintro w ⟨⟩; rfl, by simp [rangeStop], by simp⟩,
    ?_, ?_, ?_⟩
  · intro k hk
    have : k = 0 ∨ k = 1 := by have := hk.2; simp [lastSel] at this; omega
    rcases this with rfl | rfl <;> norm_num [val, weightAt]
  · intro k hk
    have : k = 0 ∨ k = 1 := by have := hk.2; simp [lastSel] at this; omega
    rcases this with rfl | rfl <;> norm_num [modelAt, tmplSum, val]
  · intro a b
    have hbig : ∀ a b, 2 ≤ b → mat [[2, 1], [1, 3]] a b = 0 := by
      intro a b hb
      unfold mat
      rcases a with _ | _ | a
      · simp [val, List.getElem?_eq_none, hb]
      · simp [val, List.getElem?_eq_none, hb]
      · simp [val]
    have hbig' : ∀ a b, 2 ≤ a → mat [[2, 1], [1, 3]] a b = 0 := by
      intro a b ha
      unfold mat
      simp [val, List.getElem?_eq_none, ha]
    rcases a with _ | _ | a <;> rcases b with _ | _ | b <;>
      simp [mat, val]

/-- C09 cannot hold without the hypothesis on tiny contents: a bin with data
`1e-10` enters the gradient but not the value. -/
theorem C09_tiny_counts_boundary :
    ∃ (data norms : List ℝ) (ts : List (List ℝ)) (fixed scratch : List ℝ) (g : ℝ) (F : ℝ → ℝ),
      gradientAt data norms ts fixed none none scratch 0 0 0 = .ok g ∧
      (∀ x, 0 < x → getLogLikelihood data (norms.set 0 x) ts fixed none none scratch 0 0
        = .ok (F x)) ∧
      HasDerivAt (fun x => - F x) 1 (val norms 0) ∧ g < 1 := by
  refine ⟨[1e-10], [1], [[1]], [0], [0], 1 - 1e-10, fun x => - x, ?_, ?_, ?_, by norm_num⟩
  · have sh : Shapes [1e-10] [1] [[1]] [0] none [0] 0 0 :=
      ⟨rfl, rfl, rfl, by simp [SameLength], by simp, by simp [rangeStop], by simp⟩
    rw [gradient_eq (by simp) sh]
    · norm_num [rangeStop, weightAt, val, modelAt, tmplSum, tmplAt]
    · intro k hk
      have : k = 0 := by have := hk.2; simp [lastSel] at this; omega
      subst this
      norm_num [modelAt, tmplSum, val]
  · intro x hx
    have sh : Shapes [1e-10] [x] [[1]] [0] none [0] 0 0 :=
      ⟨rfl, rfl, rfl, by simp [SameLength], by simp, by simp [rangeStop], by simp⟩
    rw [show ([1] : List ℝ).set 0 x = [x] from rfl, getLL_eq sh]
    · norm_num [rangeStop, weightAt, val, modelAt, tmplSum, term]
    · intro k hk
      have : k = 0 := by have := hk.2; simp [lastSel] at this; omega
      subst this
      norm_num [modelAt, tmplSum, val, weightAt]
      exact hx.le
  · simpa using hasDerivAt_id' (1 : ℝ)

end Verif.FitUtils
