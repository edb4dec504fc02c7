import Verif.GtCnts.Model
import Verif.GtCnts.Spec
import Verif.CntMap.Props
import Verif.ExpCube.Model
/-
C119: gtcntsmap makes the counts map asked for, of the events of all files.
-/
set_option linter.unusedSectionVars false
set_option linter.unusedSimpArgs false
set_option linter.unusedVariables false

namespace Verif.GtCnts
open Verif.Vec Verif.CntMap Verif.CntMap.Spec Spec

variable {project : Geom → ℝ × ℝ → ℝ × ℝ}

theorem rpow_exp {r : ℝ} (hr : 0 < r) (x : ℝ) : r ^ x = Real.exp (Real.log r * x) := Real.rpow_def_of_pos hr x

/-- The bounds of the bins asked for. -/
theorem energies_ok {d : Disk} {p : Pars} {l : List Interval} (hw : Wants d p l) :
    energies d p = .ok (l.map Interval.lo, l.map Interval.hi) ∧ l ≠ [] ∧ (∀ b ∈ l, b.lo < b.hi) ∧
      l.IsChain (fun a b => a.hi ≤ b.lo) := by
  unfold Wants at hw
  unfold energies
  cases hp : p.alg with
  | file f =>
    rw [hp] at hw
    simp only at hw ⊢
    obtain ⟨h1, h2, h3, h4⟩ := hw
    refine ⟨?_, h2, h3, h4⟩
    unfold readEbounds
    rw [h1]
    simp only [List.map_map]
    rfl
  | log a b n =>
    rw [hp] at hw
    simp only at hw ⊢
    obtain ⟨h0, hab, hn, hlen, hl⟩ := hw
    have hm : (n - 1).toNat = l.length := by omega
    have hpos : 0 < l.length := by omega
    have hr : 0 < b / a := div_pos (by linarith) h0
    have hr1 : 1 < b / a := by rw [lt_div_iff₀ h0]; linarith
    have hL : 0 < Real.log (b / a) := Real.log_pos hr1
    have hc : (0 : ℝ) < (l.length : ℝ) := by exact_mod_cast hpos
    have hnr : ((n : ℝ) - 1) = (l.length : ℝ) := by
      have : (n : ℝ) = (l.length : ℝ) + 1 := by exact_mod_cast hlen.symm
      rw [this]; ring
    refine ⟨?_, fun h => by simp [h] at hpos, ?_, ?_⟩
    · unfold logArray
      rw [if_neg (by omega), if_neg (by omega)]
      simp only
      rw [hm, hnr]
      congr 1
      rw [Prod.mk.injEq]
      constructor
      · apply List.ext_getElem
        · simp
        · intro k h1 h2
          simp only [List.getElem_map, List.getElem_range]
          rw [(hl k (by simpa using h1)).1, rpow_exp hr]
          congr 2
          field_simp
      · apply List.ext_getElem
        · simp
        · intro k h1 h2
          have hk : k < l.length := by simpa using h1
          simp only [List.getElem_map, List.getElem_range, List.getElem_set]
          rw [(hl k hk).2]
          split
          · rename_i he
            have : ((k : ℝ) + 1) / l.length = 1 := by
              have : (k : ℝ) + 1 = l.length := by
                have : k + 1 = l.length := by omega
                exact_mod_cast this
              rw [this, div_self hc.ne']
            rw [this, Real.rpow_one]
            field_simp
          · rw [rpow_exp hr]
            congr 2
            field_simp
    · intro x hx
      obtain ⟨k, hk, rfl⟩ := List.getElem_of_mem hx
      rw [(hl k hk).1, (hl k hk).2]
      apply mul_lt_mul_of_pos_left _ h0
      apply Real.rpow_lt_rpow_of_exponent_lt hr1
      apply div_lt_div_of_pos_right _ hc
      linarith
    · rw [List.isChain_iff_getElem]
      intro k hk
      rw [(hl k (by omega)).2, (hl (k + 1) hk).1]
      push_cast
      exact le_refl _

theorem good_pairs {l : List Interval} (h1 : l ≠ []) (h2 : ∀ b ∈ l, b.lo < b.hi)
    (h3 : l.IsChain (fun a b => a.hi ≤ b.lo)) : Good (.pairs (l.map Interval.lo) (l.map Interval.hi)) := by
  have v1 : ∀ k, (hk : k < l.length) → val (l.map Interval.lo) k = l[k].lo := by
    intro k hk; rw [val_lt (by simpa using hk)]; simp
  have v2 : ∀ k, (hk : k < l.length) → val (l.map Interval.hi) k = l[k].hi := by
    intro k hk; rw [val_lt (by simpa using hk)]; simp
  refine ⟨by simpa using h1, by simp, ?_, ?_⟩
  · intro k hk
    rw [List.length_map] at hk
    rw [v1 k hk, v2 k hk]
    exact h2 _ (List.getElem_mem hk)
  · intro k hk
    rw [List.length_map] at hk
    rw [v2 k (by omega), v1 (k + 1) hk]
    exact (List.isChain_iff_getElem.1 h3) k hk

theorem asked_pairs {l l' : List Interval} (h : Asked (.pairs (l.map Interval.lo) (l.map Interval.hi)) l') :
    l' = l := by
  have hlen : l'.length = l.length := by rw [h.1]; simp
  apply List.ext_getElem hlen
  intro k h1 h2
  obtain ⟨p, q⟩ := h.2 k h1
  rw [val_lt (by simpa using h2), List.getElem_map] at p q
  cases hh : l'[k]; cases hh' : l[k]
  rw [hh, hh'] at p q
  simp only at p q
  rw [p, q]

theorem chain_le : ∀ {l : List Interval}, (∀ b ∈ l, b.lo < b.hi) → l.IsChain (fun a b => a.hi ≤ b.lo) →
    ∀ i, (hi : i < l.length) → ∀ j, (hj : j < l.length) → i ≤ j → l[i].lo ≤ l[j].lo ∧ l[i].hi ≤ l[j].hi := by
  intro l h1 h2 i hi j hj hij
  induction j with
  | zero =>
    have : i = 0 := by omega
    subst this
    exact ⟨le_refl _, le_refl _⟩
  | succ j ih =>
    rcases Nat.lt_or_ge i (j + 1) with h | h
    · obtain ⟨a, b⟩ := ih (by omega) (by omega)
      have c := (List.isChain_iff_getElem.1 h2) j hj
      have d := h1 l[j] (List.getElem_mem (by omega))
      have e := h1 l[j + 1] (List.getElem_mem hj)
      exact ⟨by linarith, by linarith⟩
    · have : i = j + 1 := by omega
      subst this
      exact ⟨le_refl _, le_refl _⟩

/-- The two energies that are checked stand for all. -/
theorem check_iff {rs : List (ℝ × ℝ)} {l : List Interval} (h1 : l ≠ []) (h2 : ∀ b ∈ l, b.lo < b.hi)
    (h3 : l.IsChain (fun a b => a.hi ≤ b.lo)) :
    ∃ lo hi, vget (l.map Interval.lo) 0 = .ok lo ∧
      vget (l.map Interval.hi) ((l.map Interval.hi).length - 1) = .ok hi ∧
      ((accept rs lo ∧ accept rs hi) ↔ Inside rs l) := by
  have hp : 0 < l.length := List.length_pos_iff.2 h1
  refine ⟨l[0].lo, (l[l.length - 1]'(by omega)).hi, ?_, ?_, ?_⟩
  · rw [vget_eq_ok, List.getElem?_map, List.getElem?_eq_getElem hp]; rfl
  · rw [vget_eq_ok, List.length_map, List.getElem?_map, List.getElem?_eq_getElem (by omega)]; rfl
  · constructor
    · rintro ⟨a1, a2⟩ b hb e he1 he2 r hr
      obtain ⟨k, hk, rfl⟩ := List.getElem_of_mem hb
      have c1 := (chain_le h2 h3 0 hp k hk (by omega)).1
      have c2 := (chain_le h2 h3 k hk (l.length - 1) (by omega) (by omega)).2
      have b1 := (a1 r hr).1
      have b2 := (a2 r hr).2
      exact ⟨by linarith, by linarith⟩
    · intro h
      have m0 : l[0] ∈ l := List.getElem_mem hp
      have m1 : l[l.length - 1]'(by omega) ∈ l := List.getElem_mem (by omega)
      exact ⟨h _ m0 _ (le_refl _) (h2 _ m0).le, h _ m1 _ (h2 _ m1).le (le_refl _)⟩

theorem binFiles_ok {d : Disk} {ev : String → List Event} : ∀ (fs : List String) (m : Map),
    (∀ f ∈ fs, d.events f "events" = some (ev f)) →
    binFiles project d m fs = binAll project m (fs.map ev)
  | [], m, _ => rfl
  | f :: fs, m, h => by
    rw [binFiles, h f (by simp)]
    simp only
    rw [List.map_cons, binAll]
    congr 1
    funext m'
    exact binFiles_ok fs m' (fun g hg => h g (by simp [hg]))

theorem checks_ok {d : Disk} {p : Pars} {ev : String → List Event} {rs : List (ℝ × ℝ)} (hf : Fine d p ev rs) :
    checks d p = .ok ⟨⟩ ∧ cutsOf d p = .ok rs := by
  obtain ⟨h1, h2, h3, h4, h5, _⟩ := hf
  obtain ⟨f, fs, hfs⟩ := List.exists_cons_of_ne_nil h1
  constructor
  · unfold checks
    rw [if_neg]
    · rw [hfs]
      simp only
      rw [if_pos]
      rw [List.all_eq_true]
      intro g hg
      exact h4 f (by rw [hfs]; simp) g (by rw [hfs]; simp [hg])
    · rcases h5 with h | h <;> rw [h] <;> simp
  · unfold cutsOf
    rw [hfs]
    simp only
    rw [h3 f (by rw [hfs]; simp)]

theorem geom_located (p : Pars) : Located p (geom p) := by
  unfold Located geom geomOf Middle
  cases p.lb <;> simp <;> constructor <;> ring

/-- C119 (partial).  If the bins asked for are in the selected ranges, the output file has these bins,
the geometry asked for and the counts of all events of all files.  Missing: bins in a file are taken to
be in MeV, see `C119_units_violates`, and events to be in the extension `EVENTS`, see
`C119_table_violates`. -/
theorem C119_counts_partial {d : Disk} {p : Pars} {ev : String → List Event} {rs : List (ℝ × ℝ)}
    {l : List Interval} (hf : Fine d p ev rs) (hw : Wants d p l) (hin : Inside rs l) :
    ∃ f g, run project d p = .ok f ∧ Located p g ∧ f.nx = p.nra ∧ f.ny = p.ndec ∧ f.nz = l.length ∧
      f.ebounds = l.map (fun b => (b.lo * 1000, b.hi * 1000)) ∧
      f.crpix = g.crpix ∧ f.crval = g.crval ∧ f.cdelt = g.cdelt ∧ f.crota = g.rot ∧
      f.ctype = (if g.gal then "GLON" else "RA", g.proj) ∧
      Holds p.nra p.ndec l (fun e => project g (e "RA", e "DEC")) f.image (p.files.flatMap ev) := by
  obtain ⟨e1, e2, e3, e4⟩ := energies_ok hw
  obtain ⟨c1, c2⟩ := checks_ok hf
  obtain ⟨lo, hi, g1, g2, g3⟩ := check_iff (rs := rs) e2 e3 e4
  obtain ⟨_, hev, _, _, _, hx, hy⟩ := hf
  obtain ⟨m0, h1, hI, h2, h3, hg', hra, hdec, hen, hpos, hpw, _, hz⟩ :=
    make_ok (geom p) "RA" "DEC" hx hy (good_pairs e2 e3 e4)
  obtain ⟨m, k1, k2, k3, _, k5⟩ := binAll_ok (project := project) (p.files.map ev) m0 hI
  have hb := asked_pairs h2
  have eb : m.bins = l := by rw [k3]; exact hb
  have eg : m.geom = geom p := by rw [k3]; exact hg'
  have er : m.raField = "RA" := by rw [k3]; exact hra
  have hrun : run project d p = writeOutput m := by
    unfold run
    rw [c1, c2, e1]
    simp only [Res.bind_ok]
    rw [g1, g2]
    simp only [Res.bind_ok]
    unfold checkEnergies
    rw [if_pos (g3.2 hin)]
    simp only [Res.bind_ok]
    rw [h1]
    simp only [Res.bind_ok]
    rw [binFiles_ok p.files m0 hev, k1]
    rfl
  rw [write_ok k2] at hrun
  refine ⟨_, geom p, hrun, geom_located p, rfl, rfl, by simp only; rw [eb], by simp only; rw [eb],
    by simp only; rw [eg], by simp only; rw [eg], by simp only; rw [eg], by simp only; rw [eg], ?_, ?_, ?_⟩
  · simp only
    rw [eg, er]
    cases (geom p).gal <;> rfl
  · simp only
    rw [data_length k2, eb]
  · intro i hi' j hj k hk
    simp only
    rw [k5 i hi' j hj k (by rw [hb]; exact hk), hz i hi' j hj k (by rw [hb]; exact hk), hg', hra, hdec, hb,
      zero_add, List.flatMap_def]

/-- C119.  If some of the energies asked for are not selected in the event files, the tool stops. -/
theorem C119_refused {d : Disk} {p : Pars} {ev : String → List Event} {rs : List (ℝ × ℝ)}
    {l : List Interval} (hf : Fine d p ev rs) (hw : Wants d p l) (hin : ¬ Inside rs l) :
    run project d p = .throws := by
  obtain ⟨e1, e2, e3, e4⟩ := energies_ok hw
  obtain ⟨c1, c2⟩ := checks_ok hf
  obtain ⟨lo, hi, g1, g2, g3⟩ := check_iff (rs := rs) e2 e3 e4
  unfold run
  rw [c1, c2, e1]
  simp only [Res.bind_ok]
  rw [g1, g2]
  simp only [Res.bind_ok]
  unfold checkEnergies
  rw [if_neg (fun h => hin (g3.1 h))]
  rfl

/-- C119.  Event files whose selections do not agree with those of the first, and an existing output
file that may not be overwritten, stop the tool. -/
theorem C119_checked {d : Disk} {p : Pars}
    (h : (∃ f fs g, p.files = f :: fs ∧ g ∈ fs ∧ d.same p.evtable f g = false) ∨
      (p.clobber = false ∧ p.outfile ≠ "none" ∧ d.present p.outfile = true)) :
    run project d p = .throws := by
  have : checks d p = .throws := by
    unfold checks
    rcases h with ⟨f, fs, g, h1, h2, h3⟩ | ⟨h1, h2, h3⟩
    · split
      · rfl
      · rw [h1]
        simp only
        rw [if_neg]
        rw [List.all_eq_true]
        intro h
        have := h g h2
        rw [h3] at this
        cases this
    · rw [if_pos]
      rw [h1, h3]
      simpa using h2
  unfold run
  rw [this]
  rfl

/-- C119.  The map that is read from the output file has the bins asked for, if there are no gaps
between them, and the geometry asked for. -/
theorem C119_file {d : Disk} {p : Pars} {ev : String → List Event} {rs : List (ℝ × ℝ)}
    {l : List Interval} (hf : Fine d p ev rs) (hw : Wants d p l) (hin : Inside rs l) (hgl : Gapless l) :
    ∃ f m, run project d p = .ok f ∧ read f = .ok m ∧ Located p m.geom ∧ m.bins = l ∧
      Bounds l m.energies ∧
      Holds p.nra p.ndec l (fun e => project m.geom (e "RA", e "DEC")) m.hist.data (p.files.flatMap ev) := by
  obtain ⟨f, g, h1, h2, h3, h4, h5, h6, h7, h8, h9, h10, h11, h12⟩ := C119_counts_partial hf hw hin
  obtain ⟨_, e2, e3, e4⟩ := energies_ok hw
  have hpw : l.Pairwise (fun x y => x.hi ≤ y.lo) := by
    rw [List.pairwise_iff_getElem]
    intro i j hi hj hij
    have a := (List.isChain_iff_getElem.1 e4) i (by omega)
    have b := (chain_le e3 e4 (i + 1) (by omega) j hj (by omega)).1
    exact le_trans a b
  obtain ⟨h, o1, o2, o3, o4, o5⟩ := read_ok (f := f) (l := l) (by rw [h3]; exact hf.2.2.2.2.2.1)
    (by rw [h4]; exact hf.2.2.2.2.2.2) h6 e2 e3 hpw
  have hb := binsOf_energies _ e2 hgl
  rw [hb] at o4
  have hgeo : geomOfFile f = g := by
    unfold geomOfFile
    rw [h11, h7, h8, h9, h10]
    cases hgal : g.gal with
    | true => cases g; simp only at hgal; subst hgal; simp
    | false => cases g; simp only at hgal; subst hgal; simp
  refine ⟨f, _, h1, o4, by simp only; rw [hgeo]; exact h2, rfl, ?_, ?_⟩
  · have hlen : (energiesOf l).length = l.length + 1 := by unfold energiesOf; simp
    refine ⟨hlen, fun k hk => ?_⟩
    have hk' : k < (binsOf (energiesOf l)).length := by rw [hb]; exact hk
    have := binsOf_get hk'
    simp only [hb] at this
    exact ⟨this.1.symm, this.2.symm⟩
  · simp only
    rw [hgeo]
    exact h12

/-- C119 (violation).  With one energy, that is no bin at all, the behaviour is undefined. -/
theorem C119_one_violates {d : Disk} {p : Pars} {ev : String → List Event} {rs : List (ℝ × ℝ)}
    (hf : Fine d p ev rs) {a b : ℝ} (ha : p.alg = .log a b 1) : run project d p = .ub := by
  obtain ⟨c1, c2⟩ := checks_ok hf
  unfold run
  rw [c1, c2]
  simp only [Res.bind_ok]
  unfold energies
  rw [ha]
  rfl

/-- C119 (violation).  So it is with a file that has no energy bins. -/
theorem C119_empty_violates {d : Disk} {p : Pars} {ev : String → List Event} {rs : List (ℝ × ℝ)}
    (hf : Fine d p ev rs) {name : String} (ha : p.alg = .file name) (hb : d.bins name = some []) :
    run project d p = .ub := by
  obtain ⟨c1, c2⟩ := checks_ok hf
  unfold run
  rw [c1, c2]
  simp only [Res.bind_ok]
  unfold energies
  rw [ha]
  simp only
  unfold readEbounds
  rw [hb]
  rfl

/-- C119 (violation).  The same file of energy bins means other energies for gtcntsmap than for
gtexpcube2, which takes them to be in keV. -/
theorem C119_units_violates {d : Disk} {p : Pars} {ev : String → List Event} {rs : List (ℝ × ℝ)}
    {l : List Interval} (hf : Fine d p ev rs) (hw : Wants d p l) (hin : Inside rs l) (hgl : Gapless l)
    (hpos : ∀ x ∈ l, 0 < x.lo) {name : String} (ha : p.alg = .file name) (dx : ExpCube.Disk)
    (px : ExpCube.Pars) (hx : px.ebin = .file (some name))
    (hsame : dx.bins name = (d.bins name).map (·.map fun r => ⟨r.1, r.2⟩)) :
    ∃ f m es, run project d p = .ok f ∧ read f = .ok m ∧ ExpCube.userEdges dx px = .ok es ∧
      es = m.energies.map (· / 1000) ∧ es ≠ m.energies := by
  obtain ⟨f, m, h1, h2, _, h4, h5, _⟩ := C119_file (project := project) hf hw hin hgl
  obtain ⟨_, e2, e3, e4⟩ := energies_ok hw
  have hbins : d.bins name = some (l.map fun b => (b.lo, b.hi)) := by
    unfold Wants at hw
    rw [ha] at hw
    exact hw.1
  have hr : ExpCube.userEdges dx px = .ok ((energiesOf l).map (· / 1000)) := by
    unfold ExpCube.userEdges
    rw [hx]
    simp only
    rw [hsame, hbins]
    simp only [Option.map_some, List.map_map]
    clear hbins hsame h5 h4 hpos hgl hin hw e3 e4
    cases l with
    | nil => exact absurd rfl e2
    | cons b l' =>
      rw [List.map_cons, ExpCube.edges]
      congr 1
      unfold energiesOf
      rw [List.getLast?_eq_some_getLast (by simp)]
      simp only [List.map_append, List.map_map, List.map_nil, List.map_cons]
      congr 2
      have := List.getLast_map (f := (fun r : ℝ × ℝ => (⟨r.1, r.2⟩ : ExpCube.Row)) ∘ fun b : Interval => (b.lo, b.hi))
        (l := b :: l') (by simp)
      simp only [List.map_cons] at this
      rw [this]
      rfl
  have hm : m.energies = energiesOf l := by
    have hlen : (energiesOf l).length = l.length + 1 := by unfold energiesOf; simp
    have hb := binsOf_energies _ e2 hgl
    apply ext_val (h5.1.trans hlen.symm)
    intro k hk
    have hk' : k < l.length + 1 := by rw [← h5.1]; exact hk
    have key : ∀ j, (hj : j < l.length) → val (energiesOf l) j = l[j].lo ∧ val (energiesOf l) (j + 1) = l[j].hi := by
      intro j hj
      have hj' : j < (binsOf (energiesOf l)).length := by rw [hb]; exact hj
      have := binsOf_get hj'
      simp only [hb] at this
      exact ⟨this.1.symm, this.2.symm⟩
    rcases Nat.lt_or_ge k l.length with h | h
    · rw [(key k h).1, (h5.2 k h).1]
    · have hp := List.length_pos_iff.2 e2
      obtain ⟨j, rfl⟩ : ∃ j, k = j + 1 := ⟨k - 1, by omega⟩
      rw [(key j (by omega)).2, (h5.2 j (by omega)).2]
  refine ⟨f, m, _, h1, h2, hr, by rw [hm], ?_⟩
  intro h
  have v0 := (h5.2 0 (List.length_pos_iff.2 e2)).1
  have hp := hpos (l[0]'(List.length_pos_iff.2 e2)) (List.getElem_mem _)
  have hv : val ((energiesOf l).map (· / 1000)) 0 = val m.energies 0 / 1000 := by
    rw [hm, val_lt (by unfold energiesOf; simp), val_lt (by unfold energiesOf; simp), List.getElem_map]
  rw [h] at hv
  rw [v0] at hv
  linarith

/-- C119 (violation).  The extension named by the parameter `evtable` is not the one that is read: what
is there has no effect on the output, and without an extension `EVENTS` the tool stops. -/
theorem C119_table_violates {d d' : Disk} {p : Pars} (hr : d'.ranges = d.ranges) (hs : d'.same = d.same)
    (hb : d'.bins = d.bins) (hp : d'.present = d.present)
    (he : ∀ f t, t = "events" → d'.events f t = d.events f t) :
    run project d' p = run project d p := by
  have h1 : checks d' p = checks d p := by unfold checks; rw [hs, hp]
  have h2 : cutsOf d' p = cutsOf d p := by unfold cutsOf; rw [hr]
  have h3 : energies d' p = energies d p := by
    unfold energies readEbounds; rw [hb]
  have h4 : ∀ fs m, binFiles project d' m fs = binFiles project d m fs := by
    intro fs
    induction fs with
    | nil => intro m; rfl
    | cons f fs ih =>
      intro m
      rw [binFiles, binFiles, he f _ rfl]
      cases d.events f "events" with
      | none => rfl
      | some t =>
        simp only
        congr 1
        funext m'
        exact ih m'
  unfold run
  rw [h1, h2, h3]
  simp only [h4]

/-! ### The hypotheses can be met -/

/-- Two event files and a file of energy bins. -/
noncomputable def exDisk : Disk where
  events := fun f t => if t = "events" then
    some (if f = "a" then [exEvent 1 1 150] else [exEvent 2 2 2000]) else none
  ranges := fun _ _ => some [(50, 5000), (100, 3000)]
  same := fun _ _ _ => true
  bins := fun f => if f = "bins" then some [(100, 300), (300, 3000)] else if f = "none" then some [] else none
  present := fun f => f == "old"

/-- Three energies, that is two bins. -/
noncomputable def exPars (a : Alg) : Pars :=
  ⟨["a", "b"], "EVENTS", a, false, 83, 22, 0, 0, 3, 3, 1, 1, "CAR", "new", false⟩

theorem exFine (a : Alg) : Fine exDisk (exPars a) (fun f => if f = "a" then [exEvent 1 1 150] else [exEvent 2 2 2000])
    [(50, 5000), (100, 3000)] := by
  refine ⟨by simp [exPars], fun f _ => rfl, fun _ _ => rfl, fun _ _ _ _ => rfl, Or.inr rfl, by simp [exPars],
    by simp [exPars]⟩

/-- The bins of the file. -/
example : Wants exDisk (exPars (.file "bins")) [⟨100, 300⟩, ⟨300, 3000⟩] := by
  refine ⟨rfl, by simp, ?_, List.isChain_cons_cons.2 ⟨le_refl _, List.isChain_singleton _⟩⟩
  intro b hb
  simp at hb
  rcases hb with rfl | rfl <;> norm_num

/-- Logarithmic bins. -/
example : Wants exDisk (exPars (.log 100 1600 3)) [⟨100, 400⟩, ⟨400, 1600⟩] := by
  have h16 : (16 : ℝ) ^ ((1 : ℝ) / 2) = 4 := by
    rw [show (16 : ℝ) = 4 ^ (2 : ℝ) by norm_num, ← Real.rpow_mul (by norm_num)]; norm_num
  refine ⟨by norm_num, by norm_num, by norm_num, by simp, ?_⟩
  intro k hk
  have : k = 0 ∨ k = 1 := by simp at hk; omega
  rcases this with rfl | rfl
  · simp
    have : (1600 / 100 : ℝ) = 16 := by norm_num
    rw [this]
    norm_num at h16 ⊢
  · simp
    · have : (1600 / 100 : ℝ) = 16 := by norm_num
      rw [this]
      norm_num at h16 ⊢

/-- They are in the selected ranges. -/
example : Inside [(50, 5000), (100, 3000)] [⟨100, 300⟩, ⟨300, 3000⟩] := by
  intro b hb e h1 h2 r hr
  simp at hb hr
  rcases hb with rfl | rfl <;> rcases hr with rfl | rfl <;> simp only at h1 h2 ⊢ <;> constructor <;> linarith

/-- Others are not. -/
example : ¬ Inside [(50, 5000), (100, 3000)] [⟨100, 300⟩, ⟨300, 4000⟩] := by
  intro h
  have := (h ⟨300, 4000⟩ (by simp) 4000 (by norm_num) (by norm_num) (100, 3000) (by simp)).2
  norm_num at this

example : run project exDisk (exPars (.log 100 1000 1)) = .ub := C119_one_violates (exFine _) rfl

example : run project exDisk (exPars (.file "none")) = .ub := C119_empty_violates (exFine _) rfl (by simp [exDisk])

end Verif.GtCnts
