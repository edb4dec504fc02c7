import Verif.CompMap.Lemmas
import Verif.MapInt.Lemmas3
import Verif.Files.Props2
import Mathlib.Tactic.NormNum

set_option linter.unusedSimpArgs false
set_option linter.unusedVariables false
set_option linter.unusedSectionVars false

/-!
# Source maps of composite sources: the properties

A composite source must have the counts of its parts together.
-/

namespace Verif.CompMap

open Verif.Vec

variable {numE npix : ℕ} {es : List ℝ}

/-- **The counts of a composite source.**  Without a map for a range of phases and without energy
dispersion, for parts of any kind (stored in full or sparsely, or composite sources themselves, to
any depth): the counts of a composite source in every energy bin and pixel, and the predicted number
in every energy bin, are those of the sum of its parts times its spectrum.  Missing (and false, see
below): with a map for a range of phases, with energy dispersion, and for parts with parameters
changed since the spectrum was last computed. -/
theorem C144_counts_partial (hes : es.length = numE) (hpos : 0 < npix) {l : List ℝ}
    {spec : ℕ → ℝ} (hl : l.length = numE) (hspec : ∀ k < numE, val l k = spec k) {parts : List Src}
    {ts : List Spec.Tree} (h : Spec.IsAll numE npix (fun _ _ => 1) parts ts) (hne : es ≠ []) :
    ∃ ratios made, Energy.logEnergyRatios es = .ok ratios ∧
      makeComp none numE npix 0 l parts = .ok made ∧ ∀ k, k + 1 < numE →
        (∀ i < npix, pixelCounts made.map es ratios 1 k i =
          .ok (Spec.counts es (fun q => Spec.sky q i (.comp spec ts)) k)) ∧
        npredCounts made.map made.npred es ratios 1 k =
          .ok (∑ i ∈ Finset.range npix, Spec.counts es (fun q => Spec.sky q i (.comp spec ts)) k) := by
  have hE : 0 < numE := by rw [← hes]; exact List.length_pos_iff.2 hne
  obtain ⟨r, r1, r2, r3⟩ := ratios_ok hne
  obtain ⟨m, m1, m2, m3⟩ := makeComp_ok none (Nat.mul_pos hE hpos) (parts := parts) (ts := ts) h l
  refine ⟨r, _, r1, m1, fun k hk => ?_⟩
  have key : ∀ i < npix, (val m (k * npix + i) * val l k * val es k +
      val m ((k + 1) * npix + i) * val l (k + 1) * val es (k + 1)) / 2 * val r k =
      Spec.counts es (fun q => Spec.sky q i (.comp spec ts)) k := by
    intro i hi
    rw [m3 k i (by omega) hi, m3 (k + 1) i hk hi, hspec k (by omega), hspec _ hk,
      r3 k (by omega)]
    have e : phi none = fun _ _ => (1 : ℝ) := rfl
    rw [e, levAll_one, levAll_one]
    simp only [Spec.counts, Spec.sky, mul_one]
  constructor
  · intro i hi
    rw [pixelCounts_ok (s := (madeOf numE npix l m).map) 1 (by rw [hes]; exact m2)
      (by rw [hes]; exact hl) r2 (by omega) hi]
    refine congrArg Res.ok ?_
    rw [one_mul]
    exact key i hi
  · subst hes
    rw [npredCounts_ok 1 hl r2 hk]
    refine congrArg Res.ok (Finset.sum_congr rfl fun i hi => ?_)
    rw [one_mul]
    exact key i (Finset.mem_range.1 hi)

/-- A map with one pixel and two energies, in full. -/
def full (a b s t : ℝ) : AddMap.SMap ℝ := ⟨1, 2, false, [a, b], ⟨0, 0, []⟩, [s, t], [s, t], [a, b]⟩

theorem full_is (a b s t : ℝ) (ph : Option (ℕ → ℕ → ℝ)) (a' b' : ℝ) (ha : a = a' * phi ph 0 0)
    (hb : b = b' * phi ph 1 0) :
    Spec.Is 2 1 (phi ph) (.leaf (full a b s t))
      (.leaf (fun k _ => if k = 0 then a' else b') (fun k => if k = 0 then s else t)) := by
  unfold Spec.Is
  refine ⟨rfl, rfl, ⟨[a, b], ⟨rfl, fun _ => ⟨rfl, by simp⟩, (fun h => by cases h), rfl⟩, ?_⟩,
    fun _ => rfl, ?_⟩
  · intro k i hk hi
    obtain rfl : i = 0 := by omega
    rcases (show k = 0 ∨ k = 1 by omega) with rfl | rfl
    · simpa using ha
    · simpa using hb
  · intro k hk
    rcases (show k = 0 ∨ k = 1 by omega) with rfl | rfl <;> simp [full]

/-- Non-vacuity: a composite source of a source and another composite source. -/
example : ∃ ts, Spec.IsAll 2 1 (fun _ _ => 1)
    [.leaf (full 1 2 3 4), .comp 0 [5, 6] [.leaf (full 7 8 9 10)]] ts := by
  refine ⟨[.leaf (fun k _ => if k = 0 then 1 else 2) (fun k => if k = 0 then 3 else 4),
    .comp (fun k => if k = 0 then 5 else 6)
      [.leaf (fun k _ => if k = 0 then 7 else 8) (fun k => if k = 0 then 9 else 10)]], ?_⟩
  unfold Spec.IsAll
  refine ⟨full_is 1 2 3 4 none 1 2 (by simp [phi]) (by simp [phi]), ?_⟩
  unfold Spec.IsAll
  refine ⟨?_, by unfold Spec.IsAll; trivial⟩
  unfold Spec.Is
  refine ⟨rfl, rfl, ?_, ?_⟩
  · intro k hk
    rcases (show k = 0 ∨ k = 1 by omega) with rfl | rfl <;> simp
  · unfold Spec.IsAll
    exact ⟨full_is 7 8 9 10 none 7 8 (by simp [phi]) (by simp [phi]), by unfold Spec.IsAll; trivial⟩

/-- The counts of a source with a full map. -/
theorem leaf_counts {ph : Option (ℕ → ℕ → ℝ)} {s : AddMap.SMap ℝ} {img : ℕ → ℕ → ℝ} {spec : ℕ → ℝ}
    (hes : es.length = numE) (h : Spec.Is numE npix (phi ph) (.leaf s) (.leaf img spec))
    (hd : s.isSparse = false) {r : List ℝ} (hr : r.length + 1 = es.length)
    (hv : ∀ k, k + 1 < es.length → val r k = Real.log (val es (k + 1) / val es k)) (xi : ℝ)
    {k i : ℕ} (hk : k + 1 < numE) (hi : i < npix) :
    pixelCounts s es r xi k i =
      .ok (xi * Spec.counts es (fun q => img q i * phi ph q i * spec q) k) := by
  unfold Spec.Is at h
  obtain ⟨h1, h2, ⟨M, h3, h4⟩, h5, h6⟩ := h
  have hc := h3.spec
  rw [pixelCounts_ok xi (by rw [(h3.dense hd).1, h3.size, h2, hes]) (by rw [h5 hd, hc, h2, hes]) hr
    (by omega) (by omega)]
  rw [h5 hd, (h3.dense hd).1, h1, h4 k i (by omega) hi, h4 (k + 1) i hk hi, h6 k (by omega), h6 _ hk,
    hv k (by omega)]
  rfl

/-- **The counts before and after.**  Sources with full maps, merged to a composite source with the
spectrum one: in every energy bin and pixel the counts of the composite source are the sum of the
counts computed for its parts. -/
theorem C144_sum_partial (hes : es.length = numE) (hpos : 0 < npix) {l : List ℝ}
    (hl : l.length = numE) (hone : ∀ k < numE, val l k = 1) {ss : List (AddMap.SMap ℝ)}
    (hss : ∀ s ∈ ss, s.isSparse = false ∧
      ∃ img spec, Spec.Is numE npix (fun _ _ => 1) (.leaf s) (.leaf img spec)) (hne : es ≠ []) :
    ∃ ratios made, Energy.logEnergyRatios es = .ok ratios ∧
      makeComp none numE npix 0 l (ss.map Src.leaf) = .ok made ∧
      ∀ k i, k + 1 < numE → i < npix → ∃ cs : List ℝ,
        ss.mapM (fun s => pixelCounts s es ratios 1 k i) = .ok cs ∧
        pixelCounts made.map es ratios 1 k i = .ok cs.sum := by
  have hall : ∃ ts, Spec.IsAll numE npix (fun _ _ => 1) (ss.map Src.leaf) ts ∧
      ∀ (r : List ℝ), r.length + 1 = es.length →
      (∀ k, k + 1 < es.length → val r k = Real.log (val es (k + 1) / val es k)) →
      ∀ k i, k + 1 < numE → i < npix → ∃ cs : List ℝ,
        ss.mapM (fun s => pixelCounts s es r 1 k i) = .ok cs ∧
        cs.sum = Spec.counts es (fun q => Spec.skyAll q i ts) k := by
    clear hpos hl hone hne
    induction ss with
    | nil =>
      refine ⟨[], by unfold Spec.IsAll; trivial, fun r _ _ k i _ _ => ⟨[], rfl, ?_⟩⟩
      simp [Spec.counts, Spec.skyAll]
    | cons s ss ih =>
      obtain ⟨ts, t1, t2⟩ := ih (fun x hx => hss x (List.mem_cons_of_mem _ hx))
      obtain ⟨hd, img, spec, hi⟩ := hss s List.mem_cons_self
      refine ⟨.leaf img spec :: ts, ?_, ?_⟩
      · rw [List.map_cons]
        unfold Spec.IsAll
        exact ⟨hi, t1⟩
      · intro r hr hv k i hk hip
        obtain ⟨cs, c1, c2⟩ := t2 r hr hv k i hk hip
        have := leaf_counts (ph := none) hes hi hd hr hv 1 hk hip
        refine ⟨Spec.counts es (fun q => img q i * spec q) k :: cs, ?_, ?_⟩
        · rw [List.mapM_cons, this, Res.bind_ok, c1, Res.bind_ok, one_mul]
          simp only [phi, mul_one]
          rfl
        · rw [List.sum_cons, c2]
          simp only [Spec.counts, Spec.skyAll, Spec.sky]
          ring
  obtain ⟨ts, t1, t2⟩ := hall
  obtain ⟨r, made, h1, h2, h3⟩ := C144_counts_partial hes hpos (l := l) (spec := fun _ => 1) hl hone t1
    hne
  refine ⟨r, made, h1, h2, fun k i hk hi => ?_⟩
  obtain ⟨r', g1, g2, g3⟩ := ratios_ok hne
  obtain rfl : r' = r := Res.ok.inj (g1.symm.trans h1)
  obtain ⟨cs, c1, c2⟩ := t2 r' g2 g3 k i hk hi
  refine ⟨cs, c1, ?_⟩
  rw [(h3 k hk).1 i hi, c2]
  simp only [Spec.sky, mul_one]

example : ∀ s ∈ [full 1 2 3 4, full 7 8 9 10], s.isSparse = false ∧
    ∃ img spec, Spec.Is 2 1 (fun _ _ => 1) (.leaf s) (.leaf img spec) := by
  intro s hs
  rcases List.mem_pair.1 hs with rfl | rfl
  · exact ⟨rfl, _, _, full_is 1 2 3 4 none 1 2 (by simp [phi]) (by simp [phi])⟩
  · exact ⟨rfl, _, _, full_is 7 8 9 10 none 7 8 (by simp [phi]) (by simp [phi])⟩

/-- The sources are no composite sources. -/
def Flat (ts : List Spec.Tree) : Prop := ∀ t ∈ ts, ∃ img spec, t = .leaf img spec

theorem levAll_flat (φ : ℕ → ℕ → ℝ) (k i : ℕ) {ts : List Spec.Tree} (h : Flat ts) :
    levAll φ k i ts = φ k i * Spec.skyAll k i ts := by
  induction ts with
  | nil => simp [levAll, Spec.skyAll]
  | cons t ts ih =>
    obtain ⟨img, spec, rfl⟩ := h t List.mem_cons_self
    rw [levAll, Spec.skyAll, ih (fun x hx => h x (List.mem_cons_of_mem _ hx)), lev, Spec.sky]
    ring

/-- **The map for a range of phases is applied twice.**  With such a map, the counts of a composite
source of any sources are those with its square.  So if the range of phases takes a fraction `c` of
the exposure everywhere, merging the sources changes their counts by another factor of `c`. -/
theorem C144_phase_violates (hes : es.length = numE) (hpos : 0 < npix) {l : List ℝ}
    (hl : l.length = numE) (hone : ∀ k < numE, val l k = 1) (φ : ℕ → ℕ → ℝ) {parts : List Src}
    {ts : List Spec.Tree} (h : Spec.IsAll numE npix φ parts ts) (hf : Flat ts) (hne : es ≠ []) :
    ∃ ratios made, Energy.logEnergyRatios es = .ok ratios ∧
      makeComp (some φ) numE npix 0 l parts = .ok made ∧ ∀ k i, k + 1 < numE → i < npix →
        pixelCounts made.map es ratios 1 k i =
          .ok (Spec.counts es (fun q => φ q i ^ 2 * Spec.skyAll q i ts) k) ∧
        ∀ c, (∀ q j, φ q j = c) → c ≠ 0 → c ≠ 1 →
          Spec.counts es (fun q => Spec.skyAll q i ts) k ≠ 0 →
          pixelCounts made.map es ratios 1 k i ≠
            .ok (Spec.counts es (fun q => φ q i * Spec.skyAll q i ts) k) := by
  have hE : 0 < numE := by rw [← hes]; exact List.length_pos_iff.2 hne
  obtain ⟨r, r1, r2, r3⟩ := ratios_ok hne
  obtain ⟨m, m1, m2, m3⟩ := makeComp_ok (some φ) (Nat.mul_pos hE hpos) (parts := parts) (ts := ts) h l
  refine ⟨r, _, r1, m1, fun k i hk hi => ?_⟩
  have key : pixelCounts (madeOf numE npix l m).map es r 1 k i =
      .ok (Spec.counts es (fun q => φ q i ^ 2 * Spec.skyAll q i ts) k) := by
    rw [pixelCounts_ok (s := (madeOf numE npix l m).map) 1 (by rw [hes]; exact m2)
      (by rw [hes]; exact hl) r2 (by omega) hi]
    refine congrArg Res.ok ?_
    show 1 * ((val m (k * npix + i) * val l k * val es k +
      val m ((k + 1) * npix + i) * val l (k + 1) * val es (k + 1)) / 2 * val r k) = _
    rw [m3 k i (by omega) hi, m3 (k + 1) i hk hi, hone k (by omega), hone _ hk, r3 k (by omega),
      levAll_flat _ _ _ hf, levAll_flat _ _ _ hf]
    simp only [Spec.counts, phi]
    ring
  refine ⟨key, fun c hc h0 h1 hn he => ?_⟩
  rw [key] at he
  have e := Res.ok.inj he
  simp only [Spec.counts, hc] at e hn
  apply hn
  have hcc : c * (c - 1) ≠ 0 := mul_ne_zero h0 (sub_ne_zero.2 h1)
  refine (mul_eq_zero.1 (?_ : c * (c - 1) * _ = 0)).resolve_left hcc
  linear_combination e

/-- Non-vacuity: half of the phases. -/
example : ∃ ts, Spec.IsAll 2 1 (fun _ _ => 1 / 2) [.leaf (full 1 2 3 4)] ts ∧ Flat ts ∧
    Spec.counts [1, 2] (fun q => Spec.skyAll q 0 ts) 0 ≠ 0 := by
  refine ⟨[.leaf (fun k _ => if k = 0 then 2 else 4) (fun k => if k = 0 then 3 else 4)], ?_, ?_, ?_⟩
  · unfold Spec.IsAll
    exact ⟨full_is 1 2 3 4 (some fun _ _ => 1 / 2) 2 4 (by norm_num [phi]) (by norm_num [phi]),
      by unfold Spec.IsAll; trivial⟩
  · intro t ht
    rw [List.mem_singleton] at ht
    exact ⟨_, _, ht⟩
  · have : 0 < Real.log 2 := Real.log_pos (by norm_num)
    simp only [Spec.counts, Spec.skyAll, Spec.sky, val_cons_zero, val_cons_succ]
    norm_num

theorem fillParts_append (ph : Option (ℕ → ℕ → ℝ)) (v : List ℝ) (xs ys : List Src) :
    fillParts ph numE npix v (xs ++ ys) =
      (fillParts ph numE npix v xs >>= fun w => fillParts ph numE npix w ys) := by
  induction xs generalizing v with
  | nil => rw [List.nil_append, fillParts, Res.bind_ok]
  | cons x xs ih =>
    rw [List.cons_append, fillParts, fillParts]
    cases mapOf ph numE npix x with
    | throws => rfl
    | ub => rfl
    | ok m =>
      rw [Res.bind_ok, Res.bind_ok]
      cases m.addToVector v true 0 (-1) with
      | throws => rfl
      | ub => rfl
      | ok r => rw [Res.bind_ok, Res.bind_ok, ih]

/-- **Sources with energy dispersion cannot be merged.**  A source map with additional energies,
as all sources with energy dispersion have in the present scheme, makes the merging fail, whatever
the other sources are. -/
theorem C144_edisp_violates (ph : Option (ℕ → ℕ → ℝ)) (hE : 0 < numE) (hpos : 0 < npix)
    {pre post : List Src} {ts : List Spec.Tree} (h : Spec.IsAll numE npix (phi ph) pre ts)
    {s : AddMap.SMap ℝ} (hn : s.npix = npix) (b : ℕ) (hb : 0 < b) (he : s.nE = numE + 2 * b)
    (bins : ℕ) (l : List ℝ) :
    makeComp ph numE npix bins l (pre ++ .leaf s :: post) = .throws := by
  obtain ⟨img, g1, g2, -⟩ := fillParts_ok ph (Nat.mul_pos hE hpos) pre ts h
    (List.replicate (numE * npix) 0) (by rw [List.length_replicate])
  have hw : ∀ s' : AddMap.SMap ℝ, s'.npix = npix → s'.nE = numE + 2 * b →
      s'.wrongSize img 0 (-1) = true := by
    intro s' hn' he'
    unfold AddMap.SMap.wrongSize AddMap.SMap.kmax
    rw [if_pos (by decide), g2, hn', he']
    refine decide_eq_true ?_
    rw [Int.sub_zero]
    intro hc
    have : numE * npix = (numE + 2 * b) * npix := by exact_mod_cast hc
    have := Nat.eq_of_mul_eq_mul_right hpos this
    omega
  have hadd : s.addToVector img true 0 (-1) = .throws := by
    unfold AddMap.SMap.addToVector
    by_cases hs : s.isSparse = true
    · rw [if_pos hs]
      unfold AddMap.SMap.addSparse
      rw [hw s hn he]
      rfl
    · rw [if_neg hs]
      unfold AddMap.SMap.addFull
      simp only
      rw [hw s.reload (by unfold AddMap.SMap.reload; split <;> exact hn)
        (by unfold AddMap.SMap.reload; split <;> exact he)]
      rfl
  rw [makeComp, fillParts_append, g1, Res.bind_ok, fillParts, mapOf, Res.bind_ok, hadd]
  rfl

example : Spec.IsAll 2 1 (phi none) [] [] := by unfold Spec.IsAll; trivial

/-- **A composite source with energy dispersion.**  If it is the composite source that has
additional energies, its map is read past its end. -/
theorem C144_composite_edisp_violates (ph : Option (ℕ → ℕ → ℝ)) (hE : 0 < numE) (hpos : 0 < npix)
    {parts : List Src} {ts : List Spec.Tree} (h : Spec.IsAll numE npix (phi ph) parts ts)
    (bins : ℕ) (hb : 0 < bins) (l : List ℝ) :
    makeComp ph numE npix bins l parts = .ub := by
  obtain ⟨img, g1, g2, -⟩ := fillParts_ok ph (Nat.mul_pos hE hpos) parts ts h
    (List.replicate (numE * npix) 0) (by rw [List.length_replicate])
  have hlt : numE * npix < (numE + 2 * bins) * npix := Nat.mul_lt_mul_of_pos_right (by omega) hpos
  rw [makeComp, g1, Res.bind_ok, finish]
  cases ph with
  | some φ =>
    have : phase (some φ) (numE + 2 * bins) npix img = .ub := by
      unfold phase
      refine MapInt.loop_ub_inv (fun _ m => m.length = numE * npix) (k := numE * npix) hlt g2 ?_ ?_
      · intro i m _ hi hm
        refine ⟨m.set i (val m i * φ (i / npix) (i % npix)), ?_, by simp [hm]⟩
        rw [vget_val (by omega), Res.bind_ok]
        unfold vset
        rw [if_pos (by omega)]
      · intro m hm
        rw [vget_ge _ _ (by omega)]
        rfl
    rw [this]
    rfl
  | none =>
    have : npreds (numE + 2 * bins) npix img = .ub := by
      unfold npreds
      refine Files.mapM_ub _ _ ?_ ⟨numE, List.mem_range.2 (by omega), ?_⟩
      · intro k _
        by_cases hk : k < numE
        · refine Or.inl ⟨_, loop_sum (fun j => val img (k * npix + j)) 0 ?_⟩
          intro j s _ hj
          have := idx_lt (n := npix) (p := j) (k := k) (m := numE) (by omega) hk
          rw [vget_val (by omega), Res.bind_ok]
        · refine Or.inr (MapInt.loop_ub (k := 0) hpos (fun i s h1 h2 => by omega) fun s => ?_)
          have : numE * npix ≤ k * npix := Nat.mul_le_mul_right _ (by omega)
          rw [vget_ge _ _ (by omega)]
          rfl
      · refine MapInt.loop_ub (k := 0) hpos (fun i s h1 h2 => by omega) fun s => ?_
        rw [vget_ge _ _ (by omega)]
        rfl
    show (.ok img >>= fun m => npreds (numE + 2 * bins) npix m >>= _) = _
    rw [Res.bind_ok, this]
    rfl

/-- **Energy dispersion is lost.**  With the old scheme of energy dispersion (a correction for
every source and energy bin), a composite source has none: the counts of a source before and after
it is merged. -/
theorem C144_correction_violates (hes : es.length = numE) (hpos : 0 < npix) {l : List ℝ}
    (hl : l.length = numE) (hone : ∀ k < numE, val l k = 1) {s : AddMap.SMap ℝ}
    (hd : s.isSparse = false) {img : ℕ → ℕ → ℝ} {spec : ℕ → ℝ}
    (h : Spec.Is numE npix (fun _ _ => 1) (.leaf s) (.leaf img spec)) (hne : es ≠ [])
    (corr : List ℝ) (hc : numE ≤ corr.length + 1) :
    ∃ ratios made, Energy.logEnergyRatios es = .ok ratios ∧
      makeComp none numE npix 0 l [.leaf s] = .ok made ∧ ∀ k i, k + 1 < numE → i < npix →
        ∃ x, (xiOf (-1) corr k >>= fun xi => pixelCounts s es ratios xi k i) = .ok (val corr k * x) ∧
          (xiOf 0 corr k >>= fun xi => pixelCounts made.map es ratios xi k i) = .ok x := by
  have hall : Spec.IsAll numE npix (fun _ _ => 1) [.leaf s] [.leaf img spec] := by
    unfold Spec.IsAll
    exact ⟨h, by unfold Spec.IsAll; trivial⟩
  obtain ⟨r, made, h1, h2, h3⟩ := C144_counts_partial hes hpos (l := l) (spec := fun _ => 1) hl hone
    hall hne
  refine ⟨r, made, h1, h2, fun k i hk hi => ?_⟩
  obtain ⟨r', g1, g2, g3⟩ := ratios_ok hne
  obtain rfl : r' = r := Res.ok.inj (g1.symm.trans h1)
  have hx0 : xiOf 0 corr k = .ok 1 := by unfold xiOf; rw [if_pos rfl]
  have hx1 : xiOf (-1) corr k = .ok (val corr k) := by
    unfold xiOf
    rw [if_neg (show (-1 : ℤ) ≠ 0 by decide), vget_val (by omega)]
  refine ⟨Spec.counts es (fun q => img q i * spec q) k, ?_, ?_⟩
  · rw [hx1, Res.bind_ok, leaf_counts (ph := none) hes h hd g2 g3 (val corr k) hk hi]
    simp only [phi, mul_one]
  · rw [hx0, Res.bind_ok, (h3 k hk).1 i hi]
    simp only [Spec.sky, Spec.skyAll, mul_one, add_zero]

example : Spec.Is 2 1 (fun _ _ => 1) (.leaf (full 1 2 3 4))
    (.leaf (fun k _ => if k = 0 then 1 else 2) (fun k => if k = 0 then 3 else 4)) :=
  full_is 1 2 3 4 none 1 2 (by simp [phi]) (by simp [phi])

/-- **Parameters changed.**  A source stored in full, the parameters of which were changed after its
spectrum was last computed, is merged with the old spectrum. -/
theorem C144_stale_violates (hE : 0 < numE) (hpos : 0 < npix) (l : List ℝ) {s : AddMap.SMap ℝ}
    {M : List ℝ} (hM : s.Holds M) (hd : s.isSparse = false) (hn : s.npix = npix) (he : s.nE = numE)
    (hs : s.specVals.length = numE) :
    ∃ made, makeComp none numE npix 0 l [.leaf s] = .ok made ∧ ∀ k i, k < numE → i < npix →
      val made.map.model (k * npix + i) = val M (k * npix + i) * val s.specVals k ∧
      (val M (k * npix + i) ≠ 0 → val s.specVals k ≠ val s.current k →
        val made.map.model (k * npix + i) ≠ val M (k * npix + i) * val s.current k) := by
  obtain ⟨s', out, a1, a2, a3⟩ := add_ok hM (fun _ => by rw [hs, he])
    (v := List.replicate (numE * npix) 0) (by rw [List.length_replicate, hn, he])
  rw [List.length_replicate] at a2
  obtain ⟨m, f1, f2, f3⟩ := finish_ok none (nE := numE) (npix := npix) (img := out) l a2
  have key : ∀ k i, k < numE → i < npix →
      val m (k * npix + i) = val M (k * npix + i) * val s.specVals k := by
    intro k i hk hi
    have := a3 k i (by omega) (by omega)
    rw [hn, val_replicate_zero, zero_add, hd] at this
    rw [f3 k i hk hi, this]
    simp [phi]
  refine ⟨madeOf numE npix l m, ?_, fun k i hk hi => ⟨key k i hk hi, fun h1 h2 h3 => ?_⟩⟩
  · rw [makeComp, fillParts, mapOf, Res.bind_ok, a1, Res.bind_ok, fillParts, Res.bind_ok,
      Nat.mul_zero, Nat.add_zero, f1]
  · have e : val m (k * npix + i) = val M (k * npix + i) * val s.current k := h3
    rw [key k i hk hi] at e
    exact h2 (mul_left_cancel₀ h1 e)

example : ∃ (s : AddMap.SMap ℝ) (M : List ℝ), s.Holds M ∧ s.isSparse = false ∧ s.npix = 1 ∧ s.nE = 2 ∧
    s.specVals.length = 2 ∧ val M 0 ≠ 0 ∧ val s.specVals 0 ≠ val s.current 0 :=
  ⟨⟨1, 2, false, [1, 2], ⟨0, 0, []⟩, [3, 4], [5, 6], [1, 2]⟩, [1, 2],
    ⟨rfl, fun _ => ⟨rfl, by simp⟩, (fun h => by cases h), rfl⟩, rfl, rfl, rfl, rfl, by simp,
    by simp⟩

end Verif.CompMap
