import Verif.Binned.Layout
import Verif.Drm.Lemmas
set_option linter.unusedVariables false
set_option linter.unusedSimpArgs false
namespace Verif.Binned

open Verif.Vec Verif.Edisp Verif.Drm
open scoped BigOperators

/-- A source map made for a source with this dispersion flag and template. -/
structure Fit (e : Env) (u : Bool) (t : Nat → List ℝ) (m : MapObj) : Prop where
  cfg : m.cfg = e.ev
  geom : m.map.toGeom = computed e.nebins e.ev u e.rsp.bins
  npix : m.map.npix = e.npix
  model : m.map.model = t (e.extra u)
  cols : m.map.drmCols = e.cols
  weights : m.map.weights = e.weights
  xi : m.map.xi.length = e.nebins
  kref : m.map.kref.length = e.nebins
  krefLt : ∀ r ∈ m.map.kref, r < e.nebins

variable {e : Env} {u : Bool} {t : Nat → List ℝ} {m : MapObj}

theorem Fit.nebins (h : Fit e u t m) : m.map.nebins = e.nebins := by
  have := congrArg Geom.nebins h.geom; exact this

theorem Fit.ev (h : Fit e u t m) : m.map.ev = if u then e.ev else 0 := by
  have := congrArg Geom.ev h.geom; exact this

theorem Fit.eb (h : Fit e u t m) : m.map.eb = e.extra u := by
  have := congrArg Geom.eb h.geom; exact this

theorem Fit.drmBins (h : Fit e u t m) : m.map.drmBins = e.rsp.bins := by
  have := congrArg Geom.drmBins h.geom; exact this

theorem Fit.off (h : Fit e u t m) : m.map.off = (e.extra u : Int) - e.rsp.bins := by
  have := congrArg Geom.off h.geom; exact this

theorem Fit.evNonneg (h : Fit e u t m) (hev : 0 ≤ e.ev) : 0 ≤ m.map.ev := by
  rw [h.ev]; split <;> omega

/-- With spectral weights of the right length the map is usable. -/
theorem Fit.ok (h : Fit e u t m) (he : e.Ok)
    (ht : (t (e.extra u)).length = (e.nebins + 1 + 2 * e.extra u) * e.npix)
    (hw : m.map.specWts.length = e.nebins + 2 * e.extra u) : m.map.Ok where
  fits := by
    refine ⟨?_, ?_⟩
    · rw [h.off, h.eb, h.drmBins]
    · intro hp
      rw [h.ev] at hp ⊢
      rw [h.eb, h.drmBins, he.bins]
      unfold Env.extra
      cases u
      · simp at hp
      · simp only [if_true] at hp ⊢; omega
  model := by rw [h.model, ht, Geom.nEnergies, h.nebins, h.eb, h.npix]
  wts := by rw [hw, h.nebins, h.eb]
  cols := by rw [h.cols, he.cols, h.nebins]
  col := by rw [h.cols, h.nebins, h.drmBins]; exact he.col
  xi := by rw [h.xi, h.nebins]
  kref := by rw [h.kref, h.nebins]
  krefLt := by rw [h.nebins]; exact h.krefLt
  weights := by rw [h.weights, h.nebins, h.npix]; exact he.weights

theorem Fit.wt (h : Fit e u t m) (k p : Nat) : m.map.wt k p = Binned.wt e k p := by
  unfold SrcMap.wt Binned.wt; rw [h.weights, h.npix]; cases e.weights <;> rfl

theorem Fit.first (h : Fit e u t m) (hev : 0 ≤ e.ev) (k : Nat) : m.map.first k = m.map.kmin k := by
  have := h.evNonneg hev
  unfold SrcMap.first; rw [if_neg (by omega)]

theorem Fit.kmin (h : Fit e u t m) (hev : 0 ≤ e.ev) (k : Nat) : m.map.kmin k = k := by
  unfold Geom.kmin
  rw [h.eb, h.ev]
  unfold Env.extra
  cases u <;> simp

/-- Pixel counts of the map. -/
theorem Fit.pix (h : Fit e u t m) (he : e.Ok) (hev : 0 ≤ e.ev) (w : List (ℝ × ℝ)) (k p : Nat) :
    m.map.pix w k p = dispersed e u (t (e.extra u)) w k p := by
  unfold SrcMap.pix dispersed
  have hat : ∀ k p, m.map.at' k p = val (t (e.extra u)) (k * e.npix + p) := by
    intro k p; unfold SrcMap.at'; rw [h.model, h.npix]
  rw [h.first hev, h.kmin hev]
  by_cases hc : u = true ∧ 0 < e.ev
  · rw [if_pos hc]
    have hev' : m.map.ev = e.ev := by rw [h.ev, if_pos hc.1]
    have hn : m.map.nTrue = 2 * e.ev.toNat + 1 := by
      unfold Geom.nTrue; rw [hev', if_pos hc.2]
    rw [hn]
    apply Finset.sum_congr rfl
    intro i _
    have hd : m.map.disp k i = val (e.cols[k]?.getD []) (k + i) := by
      unfold SrcMap.disp
      rw [hev', if_pos hc.2, h.cols, h.drmBins, he.bins]
      congr 1
      omega
    rw [hd, hat, hat]; rfl
  · rw [if_neg hc]
    have hev' : m.map.ev = 0 := by
      rw [h.ev]
      cases u
      · simp
      · simp at hc ⊢; omega
    have hn : m.map.nTrue = 1 := nTrue_of_nonpos (by omega)
    rw [hn, Finset.sum_range_one]
    have hd : m.map.disp k 0 = 1 := by
      unfold SrcMap.disp; rw [hev']; simp
    rw [hd, hat, hat, one_mul, Nat.add_zero]
    rfl

/-- Weighted counts of a bin. -/
noncomputable def wdisp (e : Env) (u : Bool) (T : List ℝ) (w : List (ℝ × ℝ)) (k : Nat) : ℝ :=
  ∑ p ∈ Finset.range e.npix, wt e k p * dispersed e u T w k p

theorem Fit.wbin (h : Fit e u t m) (he : e.Ok) (hev : 0 ≤ e.ev) (w : List (ℝ × ℝ)) (k : Nat) :
    m.map.wbin w (m.map.disp k) k = wdisp e u (t (e.extra u)) w k := by
  rw [← sum_wpix _ _ (h.first hev k), h.npix]
  apply Finset.sum_congr rfl
  intro p _
  rw [h.wt, h.pix he hev]

/-- `addSourceCounts` adds the counts of the source in each filled pixel. -/
theorem addSourceCounts_ok (L : Lay e) {s : SrcMap ℝ} (h : s.Ok) (hn : s.nebins = e.nebins)
    (hp : s.npix = e.npix) (subtract : Bool) {mc : List ℝ} (hl : mc.length = e.filled.length) :
    ∃ out, addSourceCounts s e.filled e.first subtract mc = .ok out ∧ out.length = mc.length ∧
      ∀ k < e.nebins, ∀ j, val e.first k ≤ j → j < val e.first (k + 1) →
        val out j = val mc j + (if subtract then -1 else 1) * s.pix s.specWts k (val e.filled j) := by
  obtain ⟨out, h1, h2, h3⟩ := stretch_upd L hl (kmin := 0) (kmax := e.nebins) (le_refl _)
    (body := fun k j mc => do
      let ipix ← vget e.filled j
      let c ← modelCounts s s.specWts k ipix
      addAt mc j ((if subtract then -1 else 1) * c))
    (fun k j x => x + (if subtract then -1 else 1) * s.pix s.specWts k (val e.filled j))
    (by
      intro k j w _ hk h1 h2 hw
      have hlast := L.last (k + 1) (by omega)
      rw [vget_val (by omega), Res.bind_ok,
        modelCounts_ok h h.wts (by omega) (by rw [hp]; exact L.pix k hk j h1 h2), Res.bind_ok,
        addAt_ok (by omega)])
  refine ⟨out, ?_, h2, fun k hk j a b => h3 k (by omega) hk j a b⟩
  unfold addSourceCounts
  rw [hn]
  exact h1

/-- Four spectra of the right length. -/
structure Sized (e : Env) (sp : Spectra ℝ) : Prop where
  counts : sp.counts.length = e.nebins
  countsWt : sp.countsWt.length = e.nebins
  edisp : sp.edisp.length = e.nebins
  edispWt : sp.edispWt.length = e.nebins

theorem addNpreds_ok (h : Fit e u t m) (he : e.Ok) (hev : 0 ≤ e.ev) (hok : m.map.Ok)
    (subtract : Bool) {sp : Spectra ℝ} (hs : Sized e sp) :
    ∃ out, addNpreds m subtract sp = .ok out ∧ Sized e out ∧
      ∀ k < e.nebins, val out.edispWt k = val sp.edispWt k +
        (if subtract then -1 else 1) * wdisp e u (t (e.extra u)) m.map.specWts k := by
  have hn := h.nebins
  obtain ⟨out, h1, h2, h3, h4, h5⟩ := addFixedNpreds_ok hok subtract (sp := sp)
    (by rw [hs.counts, hn]) (by rw [hs.countsWt, hn]) (by rw [hs.edisp, hn])
    (by rw [hs.edispWt, hn])
  refine ⟨out, ?_, ⟨by rw [h2.1, hs.counts], by rw [h3.1, hs.countsWt], by rw [h4.1, hs.edisp],
    by rw [h5.1, hs.edispWt]⟩, ?_⟩
  · unfold addNpreds
    rw [computeNpreds_ok hok, Res.bind_ok]
    exact h1
  · intro k hk
    rw [h5.2, if_pos (by omega)]
    simp only
    rw [h.wbin he hev]

theorem refreshCache_ok (h : Fit e u t m) (he : e.Ok) (hev : 0 ≤ e.ev) (hok : m.map.Ok) :
    ∃ m', refreshCache e m = .ok m' ∧ Fit e u t m' ∧ m'.latched = m.latched ∧ m'.addr = m.addr ∧
      m'.map.specWts = m.map.specWts ∧ m'.map.Ok ∧
      ∀ kmin kmax flag, kmax ≤ e.nebins → (flag = 0 → m.map.ev = 0) →
        summedCounts m'.cache kmin kmax flag true =
          .ok (∑ k ∈ Finset.Ico kmin kmax, wdisp e u (t (e.extra u)) m.map.specWts k) := by
  have hn := h.nebins
  have hmev := h.evNonneg hev
  obtain ⟨c, c1, c2, c3, c4, c5, c6, c7, c8, c9, c10⟩ := updateCache_ok hok
    (d := e.rsp) (by rw [he.nmeas, hn]) (fun hh => absurd hmev (by omega))
    (raw := (List.range e.rsp.nmeas).map (fun k => (measAt m.map k).1))
    (by unfold rawMeas measured; rw [if_neg (by omega)]) (by simp [he.nmeas, hn])
  have hok' := withCache_ok hok c5 c6 c7
  refine ⟨{ m with map := withCache m.map c, cache := c }, ?_, ?_, rfl, rfl, rfl, hok', ?_⟩
  · unfold refreshCache
    rw [computeNpreds_ok hok, Res.bind_ok]
    simp only
    rw [c1, Res.bind_ok]
  · refine ⟨h.cfg, h.geom, h.npix, h.model, h.cols, h.weights, by rw [← hn]; exact hok'.xi,
      by rw [← hn]; exact hok'.kref, ?_⟩
    rw [← hn]; exact hok'.krefLt
  · intro kmin kmax flag hk hflag
    have htw : ∀ k < e.nebins, m.map.ev = 0 →
        trueWtAt m.map k = wdisp e u (t (e.extra u)) m.map.specWts k := by
      intro k hk hz
      rw [← h.wbin he hev]
      unfold SrcMap.wbin
      rw [nTrue_of_nonpos (by omega), Finset.sum_range_one]
      have hd : m.map.disp k 0 = 1 := by unfold SrcMap.disp; rw [hz]; simp
      rw [hd, one_mul, h.first hev, Nat.add_zero]
      unfold trueWtAt
      have : m.map.kmin k = k + m.map.eb := by unfold Geom.kmin; rw [hz]; simp
      rw [this]
    have hmw : ∀ k < e.nebins, (measAt m.map k).2 = wdisp e u (t (e.extra u)) m.map.specWts k := by
      intro k hk
      unfold measAt
      by_cases hp : 0 < m.map.ev
      · rw [if_pos hp]; exact h.wbin he hev _ k
      · rw [if_neg hp]; exact htw k hk (by omega)
    unfold summedCounts
    simp only [if_true]
    have hv : ∀ k < e.nebins, vget (if flag = 0 then c.trueWt else c.measWt) k =
        .ok (wdisp e u (t (e.extra u)) m.map.specWts k) := by
      intro k hk
      by_cases hf : flag = 0
      · rw [if_pos hf, c3, vget_val (by simp; omega), val_map_range _ (by omega),
          htw k hk (hflag hf)]
      · rw [if_neg hf, c10 (by omega), vget_val (by simp; omega), val_map_range _ (by omega),
          hmw k hk]
    rw [loop_sum (fun k => wdisp e u (t (e.extra u)) m.map.specWts k)]
    · rw [zero_add, Finset.sum_Ico_eq_sum_range]
    · intro k acc h1 h2
      rw [hv k (by omega), Res.bind_ok]

/-- A newly made map. -/
theorem newMap_ok (he : e.Ok) (hev : 0 ≤ e.ev) {σ : Src} (hσ : σ.Ok e) :
    ∃ m, newMap e e.ev σ = .ok m ∧ Fit e σ.useEdisp σ.tmpl m := by
  unfold newMap
  set m0 : MapObj :=
    { addr := σ.addr
      cfg := e.ev
      map :=
        { toGeom := computed e.nebins e.ev σ.useEdisp e.rsp.bins
          npix := e.npix
          model := σ.tmpl (computed e.nebins e.ev σ.useEdisp e.rsp.bins).eb
          specWts := σ.spec (computed e.nebins e.ev σ.useEdisp e.rsp.bins).eb σ.vals
          drmCols := e.cols
          xi := List.replicate e.nebins 1
          kref := List.replicate e.nebins (-1)
          weights := e.weights }
      latched := []
      cache := ⟨[], [], [], [], [], []⟩ } with hm0
  have hf : Fit e σ.useEdisp σ.tmpl m0 := by
    refine ⟨rfl, rfl, rfl, rfl, rfl, rfl, by simp [hm0], by simp [hm0], ?_⟩
    intro r hr
    rw [hm0] at hr
    simp only [List.mem_replicate] at hr
    omega
  obtain ⟨m', h1, h2, -⟩ := refreshCache_ok hf he hev (hf.ok he hσ.tmpl (hσ.spec _))
  exact ⟨m', h1, h2⟩

theorem setSource_fit (h : Fit e u t m) {σ : Src} (hu : σ.useEdisp = u) :
    Fit e u t (setSource m σ) ∧ (setSource m σ).latched = m.latched := by
  unfold setSource
  by_cases ha : m.addr = σ.addr
  · rw [if_pos ha]; exact ⟨h, rfl⟩
  · rw [if_neg ha]
    refine ⟨⟨h.cfg, ?_, h.npix, h.model, h.cols, h.weights, h.xi, h.kref, h.krefLt⟩, rfl⟩
    have hg := h.geom
    have h1 : (if σ.useEdisp = true then m.cfg else 0) = m.map.ev := by
      rw [hu, h.cfg, h.ev]
    have h2 : (m.map.eb : Int) - m.map.drmBins = m.map.off := by
      rw [h.off, h.eb, h.drmBins]
    rw [← hg]
    simp only [h1, h2]

theorem setSpectral_fit (h : Fit e u t m) (σ : Src) (latch : Bool) :
    Fit e u t (setSpectral m σ latch) ∧
      (setSpectral m σ latch).map.specWts = σ.spec (e.extra u) σ.vals := by
  refine ⟨⟨h.cfg, h.geom, h.npix, h.model, h.cols, h.weights, h.xi, h.kref, h.krefLt⟩, ?_⟩
  unfold setSpectral
  simp only
  rw [h.eb]

end Verif.Binned
