import Verif.CntMap.Lemmas
import Verif.TsMap.Lemmas
/-
C118: a counts map holds the number of events of each pixel and energy bin.
-/
set_option linter.unusedSectionVars false
set_option linter.unusedSimpArgs false
set_option linter.unusedVariables false

namespace Verif.CntMap
open Verif.Vec Verif.HistND Spec

variable {project : Geom → ℝ × ℝ → ℝ × ℝ}

/-- C118.  After any number of tables of events, a counts map has the energy bins asked for and in
every pixel and energy bin the number of events there. -/
theorem C118_counts (g : Geom) (ra dec : String) {nx ny : Nat} (hx : 0 < nx) (hy : 0 < ny) {b : Bins}
    (hg : Good b) (ts : List (List Event)) :
    ∃ m0 m l, make g ra dec nx ny b = .ok m0 ∧ binAll project m0 ts = .ok m ∧ Asked b l ∧
      (Gapless l → Bounds l m.energies) ∧
      Holds nx ny l (fun e => project g (e ra, e dec)) m.hist.data ts.flatten := by
  obtain ⟨m0, h1, hI, h2, h3, hg', hra, hdec, hen, hpos, hpw, _, hz⟩ := make_ok g ra dec hx hy hg
  obtain ⟨m, k1, k2, k3, _, k5⟩ := binAll_ok (project := project) ts m0 hI
  have e1 : m.bins = m0.bins := by rw [k3]
  refine ⟨m0, m, m0.bins, h1, k1, h2, ?_, ?_, ?_⟩
  · intro hgl
    have hme : m.energies = energiesOf m0.bins := by rw [k3]; exact hen
    rw [hme]
    have hb := binsOf_energies _ h3 hgl
    have hlen : (energiesOf m0.bins).length = m0.bins.length + 1 := by unfold energiesOf; simp
    refine ⟨hlen, fun k hk => ?_⟩
    have hk' : k < (binsOf (energiesOf m0.bins)).length := by rw [hb]; exact hk
    have := binsOf_get hk'
    simp only [hb] at this
    exact ⟨this.1.symm, this.2.symm⟩
  · have := data_length k2
    rw [this, e1]
  · intro i hi j hj k hk
    rw [k5 i hi j hj k hk, hz i hi j hj k hk, hg', hra, hdec, zero_add]

/-- C118.  No event is counted in two cells. -/
theorem C118_once {at_ : Event → ℝ × ℝ} {b : Bins} (hg : Good b) {l : List Interval} (hl : Asked b l)
    {i j k i' j' k' : Nat} {e : Event} (h : InCell at_ l i j k e) (h' : InCell at_ l i' j' k' e) :
    i = i' ∧ j = j' ∧ k = k' := by
  have pix : ∀ (a b : Nat) (x : ℝ), InPixel a x → InPixel b x → a = b := by
    intro a b x h1 h2
    obtain ⟨a1, a2⟩ := h1
    obtain ⟨b1, b2⟩ := h2
    have c1 : (a : ℝ) < (b : ℝ) + 1 := by linarith
    have c2 : (b : ℝ) < (a : ℝ) + 1 := by linarith
    have d1 : a < b + 1 := by exact_mod_cast c1
    have d2 : b < a + 1 := by exact_mod_cast c2
    omega
  obtain ⟨h1, h2, x, hx, hxe⟩ := h
  obtain ⟨h1', h2', x', hx', hxe'⟩ := h'
  refine ⟨pix _ _ _ h1 h1', pix _ _ _ h2 h2', ?_⟩
  have hle : ∀ k x, l[k]? = some x → k < l.length := fun k x h => (List.getElem?_eq_some_iff.1 h).1
  obtain ⟨l', e1, e2, _, _, _, e6⟩ := bins_ok hg
  have : l' = l := by
    have key : l'.length = l.length ∧ ∀ k, (hk : k < l'.length) → (hk' : k < l.length) → l'[k] = l[k] := by
      cases b with
      | log a b n =>
        refine ⟨e2.1.trans hl.1.symm, fun k hk hk' => ?_⟩
        have p := e2.2 k hk; have q := hl.2 k hk'
        cases hh : l'[k]; cases hh' : l[k]
        rw [hh] at p; rw [hh'] at q
        simp only at p q
        rw [p.1, p.2, q.1, q.2]
      | edges es =>
        refine ⟨by have p := e2.1; have q := hl.1; omega, fun k hk hk' => ?_⟩
        have p := e2.2 k hk; have q := hl.2 k hk'
        cases hh : l'[k]; cases hh' : l[k]
        rw [hh] at p; rw [hh'] at q
        simp only at p q
        rw [p.1, p.2, q.1, q.2]
      | pairs as bs =>
        refine ⟨e2.1.trans hl.1.symm, fun k hk hk' => ?_⟩
        have p := e2.2 k hk; have q := hl.2 k hk'
        cases hh : l'[k]; cases hh' : l[k]
        rw [hh] at p; rw [hh'] at q
        simp only at p q
        rw [p.1, p.2, q.1, q.2]
    exact List.ext_getElem key.1 key.2
  subst this
  have m1 := (e6.2 (e "ENERGY") k (hle _ _ hx)).2 ⟨x, hx, hxe⟩
  have m2 := (e6.2 (e "ENERGY") k' (hle _ _ hx')).2 ⟨x', hx', hxe'⟩
  omega

/-- C118 (partial).  For bins without gaps a map that is written and read again has the same
coordinates, energies and counts, and counting can go on.  Missing: see `C118_gap_violates`. -/
theorem C118_roundtrip_partial (g : Geom) {nx ny : Nat} (hx : 0 < nx) (hy : 0 < ny) {b : Bins}
    (hg : Good b) (hgl : ∀ l, Asked b l → Gapless l) (ts us : List (List Event)) :
    ∃ m0 m f m1 m2 l, make g "RA" "DEC" nx ny b = .ok m0 ∧ binAll project m0 ts = .ok m ∧
      writeOutput m = .ok f ∧ read f = .ok m1 ∧ m1.geom = g ∧ m1.energies = m.energies ∧
      m1.hist.data = m.hist.data ∧ binAll project m1 us = .ok m2 ∧ Asked b l ∧
      Holds nx ny l (fun e => project g (e "RA", e "DEC")) m2.hist.data (ts.flatten ++ us.flatten) := by
  obtain ⟨m0, h1, hI, h2, h3, hg', hra, hdec, hen, hpos, hpw, _, hz⟩ := make_ok g "RA" "DEC" hx hy hg
  obtain ⟨m, k1, k2, k3, _, k5⟩ := binAll_ok (project := project) ts m0 hI
  have e1 : m.bins = m0.bins := by rw [k3]
  have e2 : m.geom = g := by rw [k3]; exact hg'
  have e3 : m.raField = "RA" := by rw [k3]; exact hra
  have e5 : m.energies = energiesOf m0.bins := by rw [k3]; exact hen
  have hw := write_ok k2
  set f : File := ⟨nx, ny, m.bins.length, m.hist.data,
      m.bins.map (fun b => (b.lo * 1000, b.hi * 1000)),
      if m.geom.gal then ("GLON", m.geom.proj) else (m.raField, m.geom.proj),
      m.geom.crpix, m.geom.crval, m.geom.cdelt, m.geom.rot, m.cdelt3⟩ with hf
  have hb := binsOf_energies _ h3 (hgl _ h2)
  obtain ⟨h, o1, o2, o3, o4, o5⟩ := read_ok (f := f) (l := m0.bins) hx hy (by rw [hf, e1]) h3 hpos hpw
  rw [hb] at o2 o4 o5
  have hgeo : geomOfFile f = g := by
    unfold geomOfFile
    rw [hf]
    simp only
    rw [e2, e3]
    cases hgal : g.gal with
    | true => cases g; simp only at hgal; subst hgal; rfl
    | false =>
      cases g; simp only at hgal; subst hgal
      simp
  rw [hgeo] at o4
  set m1 : Map := ⟨g, "RA", "DEC", m0.bins, energiesOf m0.bins, { h with data := f.image }, f.cdelt3⟩ with hm1
  have hI1 : Inv nx ny m1 := by
    refine ⟨⟨o1.nonempty, o1.pos, ?_, o1.strides⟩, _, o2, o5⟩
    have e := o1.size
    have d := data_length k2
    change m.hist.data.length = _
    rw [d, e1, ← o3, e]
    rfl
  obtain ⟨m2, l1, l2, l3, _, l5⟩ := binAll_ok (project := project) us m1 hI1
  refine ⟨m0, m, f, m1, m2, m0.bins, h1, k1, hw, o4, rfl, e5.symm, rfl, l1, h2, ?_, ?_⟩
  · have := data_length l2
    have e : m2.bins = m0.bins := by rw [l3]
    rw [this, e]
  · intro i hi j hj k hk
    rw [l5 i hi j hj k hk, number_append]
    change val m.hist.data _ + _ = _
    rw [k5 i hi j hj k hk, hz i hi j hj k hk, hg', hra, hdec, zero_add]
    push_cast
    rfl

/-- C118 (violation).  If there is a gap between the bins, a map that is written and read again counts
an event in the gap, though the original map does not; the energies the map states are the same for
both. -/
theorem C118_gap_violates (g : Geom) {nx ny : Nat} (hx : 0 < nx) (hy : 0 < ny) {a b c d : ℝ}
    (hab : a < b) (hbc : b < c) (hcd : c < d) (e : Event) (hb : b ≤ e "ENERGY") (hc : e "ENERGY" < c)
    (hp : InPixel 0 (project g (e "RA", e "DEC")).1 ∧ InPixel 0 (project g (e "RA", e "DEC")).2) :
    ∃ m f m1 m' m1', make g "RA" "DEC" nx ny (.pairs [a, c] [b, d]) = .ok m ∧ writeOutput m = .ok f ∧
      read f = .ok m1 ∧ m1.geom = m.geom ∧ m1.energies = m.energies ∧
      binInput project m [e] = .ok m' ∧ val m'.hist.data 0 = 0 ∧
      binInput project m1 [e] = .ok m1' ∧ val m1'.hist.data 0 = 1 := by
  have hg : Good (.pairs [a, c] [b, d]) := by
    refine ⟨by simp, rfl, ?_, ?_⟩
    · intro k hk
      have : k = 0 ∨ k = 1 := by simp at hk; omega
      rcases this with rfl | rfl
      · simpa using hab
      · simpa using hcd
    · intro k hk
      have : k = 0 := by simp at hk; omega
      subst this
      simpa using hbc.le
  obtain ⟨m, h1, hI, h2, h3, hg', hra, hdec, hen, hpos, hpw, _, hz⟩ := make_ok g "RA" "DEC" hx hy hg
  have hbins : m.bins = [⟨a, b⟩, ⟨c, d⟩] := by
    unfold make at h1
    have hin : intervals (.pairs [a, c] [b, d]) = .ok [⟨a, b⟩, ⟨c, d⟩] := rfl
    rw [hin, Res.bind_ok] at h1
    obtain ⟨h, _, h4⟩ := Res.bind_eq_ok.1 h1
    simp only [Res.ok.injEq] at h4
    rw [← h4]
  have hw := write_ok hI
  set f : File := ⟨nx, ny, m.bins.length, m.hist.data,
      m.bins.map (fun b => (b.lo * 1000, b.hi * 1000)),
      if m.geom.gal then ("GLON", m.geom.proj) else (m.raField, m.geom.proj),
      m.geom.crpix, m.geom.crval, m.geom.cdelt, m.geom.rot, m.cdelt3⟩ with hf
  obtain ⟨h, o1, o2, o3, o4, o5⟩ := read_ok (f := f) (l := m.bins) hx hy (by rw [hf]) h3 hpos hpw
  have hgeo : geomOfFile f = g := by
    unfold geomOfFile
    rw [hf]
    simp only
    rw [hg', hra]
    cases hgal : g.gal with
    | true => cases g; simp only at hgal; subst hgal; rfl
    | false =>
      cases g; simp only at hgal; subst hgal
      simp
  rw [hgeo] at o4
  have hnew : binsOf (energiesOf m.bins) = [⟨a, c⟩, ⟨c, d⟩] := by rw [hbins]; simp [energiesOf, binsOf]
  rw [hnew] at o2 o4 o5
  set m1 : Map := ⟨g, "RA", "DEC", [⟨a, c⟩, ⟨c, d⟩], energiesOf m.bins, { h with data := f.image }, f.cdelt3⟩ with hm1
  have hI1 : Inv nx ny m1 := by
    refine ⟨⟨o1.nonempty, o1.pos, ?_, o1.strides⟩, _, o2, o5⟩
    have e := o1.size
    have d := data_length hI
    change m.hist.data.length = _
    rw [d, ← o3, e]
    rfl
  obtain ⟨m', k1, _, k3, _, k5⟩ := binInput_ok (project := project) [e] m hI
  obtain ⟨m1', l1, _, l3, _, l5⟩ := binInput_ok (project := project) [e] m1 hI1
  refine ⟨m, f, m1, m', m1', h1, hw, o4, hg'.symm, hen.symm, k1, ?_, l1, ?_⟩
  · have := k5 0 hx 0 hy 0 (by rw [hbins]; simp)
    rw [hz 0 hx 0 hy 0 (by rw [hbins]; simp)] at this
    simp only [Nat.mul_zero, Nat.add_zero, Nat.zero_add] at this
    rw [this]
    have : number (fun e => project m.geom (e m.raField, e m.decField)) m.bins 0 0 0 [e] = 0 := by
      unfold number
      rw [List.countP_eq_zero]
      intro x hx
      rw [List.mem_singleton] at hx
      subst hx
      intro hdec
      obtain ⟨_, _, y, hy, h1, h2⟩ := @of_decide_eq_true _ (Classical.propDecidable _) hdec
      rw [hbins] at hy
      simp only [List.getElem?_cons_zero, Option.some.injEq] at hy
      subst hy
      simp only at h2
      linarith
    rw [this]; simp
  · have := l5 0 hx 0 hy 0 (by simp [hm1])
    simp only [Nat.mul_zero, Nat.add_zero, Nat.zero_add] at this
    rw [this]
    have h0 := hz 0 hx 0 hy 0 (by rw [hbins]; simp)
    simp only [Nat.mul_zero, Nat.add_zero, Nat.zero_add] at h0
    change val m.hist.data 0 + _ = _
    rw [h0]
    have : number (fun e => project m1.geom (e m1.raField, e m1.decField)) m1.bins 0 0 0 [e] = 1 := by
      unfold number
      rw [List.countP_cons, if_pos]
      · rfl
      · exact @decide_eq_true _ (Classical.propDecidable _)
          ⟨hp.1, hp.2, ⟨a, c⟩, rfl, by simp only; linarith, hc⟩
    rw [this]; simp

/-- C118 (violation).  A file with fewer planes than energy bins is accepted, and counting an event in
one of the bins without a plane is undefined behaviour. -/
theorem C118_mismatch_violates {f : File} {l : List Interval} (hx : 0 < f.nx) (hy : 0 < f.ny)
    (he : f.ebounds = l.map fun b => (b.lo * 1000, b.hi * 1000)) (hne : l ≠ [])
    (hpos : ∀ x ∈ l, x.lo < x.hi) (hgl : Gapless l) (him : f.image.length = f.nx * f.ny * f.nz) :
    ∃ m, read f = .ok m ∧ ∀ (i j k : Nat) (e : Event), i < f.nx → j < f.ny → f.nz ≤ k →
      InCell (fun e => project m.geom (e "RA", e "DEC")) l i j k e →
      binInput project m [e] = .ub := by
  have hpw : l.Pairwise (fun x y => x.hi ≤ y.lo) := by
    clear he hne
    induction l with
    | nil => exact List.Pairwise.nil
    | cons a l ih =>
      unfold Gapless at hgl
      have ih' := ih (fun x h => hpos x (List.mem_cons_of_mem _ h)) (by
        cases l with
        | nil => exact List.isChain_nil
        | cons b l => exact (List.isChain_cons_cons.1 hgl).2)
      rw [List.pairwise_cons]
      refine ⟨?_, ih'⟩
      cases l with
      | nil => simp
      | cons b l =>
        have hab := (List.isChain_cons_cons.1 hgl).1
        intro y hy
        rw [List.mem_cons] at hy
        rcases hy with rfl | hy
        · exact hab.le
        · have h1 := (List.pairwise_cons.1 ih').1 y hy
          have h2 := hpos b (by simp)
          rw [hab]; linarith
  obtain ⟨h, o1, o2, o3, o4, o5⟩ := read_ok (f := f) (l := l) hx hy he hne hpos hpw
  have hb := binsOf_energies _ hne hgl
  rw [hb] at o2 o4 o5
  refine ⟨_, o4, ?_⟩
  intro i j k e hi hj hk hc
  obtain ⟨c1, c2, c3⟩ := hc
  obtain ⟨y, hy', hy2⟩ := c3
  have c3 : ∃ b, l[k]? = some b ∧ InBin b (e "ENERGY") := ⟨y, hy', hy2⟩
  have hkl : k < l.length := (List.getElem?_eq_some_iff.1 hy').1
  have hfall := (falls_iff o5 hi hj hkl (project (geomOfFile f) (e "RA", e "DEC")).1
    (project (geomOfFile f) (e "RA", e "DEC")).2 (e "ENERGY")).2 ⟨c1, c2, c3⟩
  rw [← o2] at hfall
  have hlook := (C23_lookup h o1 [(project (geomOfFile f) (e "RA", e "DEC")).1,
    (project (geomOfFile f) (e "RA", e "DEC")).2, e "ENERGY"] 0 (by rw [o2]; rfl)).1 _ hfall
  rw [binInput]
  unfold Hist.fillBin
  have : Hist.binIndexOf { h with data := f.image } (coords project ⟨geomOfFile f, "RA", "DEC", l,
      energiesOf l, { h with data := f.image }, f.cdelt3⟩ e) 0 = .ok (some (cell h.dims [i, j, k])) := hlook
  simp only
  rw [this]
  simp only [Res.bind_ok]
  have hcell : cell h.dims [i, j, k] = i + f.nx * (j + f.ny * k) := by
    unfold Hist.dims
    rw [o2]
    simp [cell, pixelBinner]
  rw [hcell, vget_ge]
  · rfl
  · rw [him]
    have h1 : f.ny * f.nz ≤ j + f.ny * k := by
      have := Nat.mul_le_mul_left f.ny hk
      omega
    have h2 := Nat.mul_le_mul_left f.nx h1
    rw [← mul_assoc] at h2
    omega

/-- C118 (violation).  For logarithmic bins the file states a step of the energy axis that is not that
of the bins. -/
theorem C118_step_violates (g : Geom) {nx ny n : Nat} (hx : 0 < nx) (hy : 0 < ny) {a b : ℝ}
    (ha : 0 < a) (hab : a < b) (hn : 2 ≤ n) :
    ∃ m f s, make g "RA" "DEC" nx ny (.log a b n) = .ok m ∧ writeOutput m = .ok f ∧
      f.cdelt3 = some s ∧ ∀ x ∈ m.bins, Real.log (x.hi / x.lo) < s := by
  have hg : Good (.log a b n) := ⟨ha, hab, by omega⟩
  obtain ⟨m, h1, hI, h2, h3, hg', hra, hdec, hen, hpos, hpw, hc3, hz⟩ := make_ok g "RA" "DEC" hx hy hg
  refine ⟨m, _, Real.log (b / a) / (n - 1), h1, write_ok hI, ?_, ?_⟩
  · simp only
    rw [hc3]
    unfold step3
    simp only
    rw [if_neg (by omega)]
  · intro x hxm
    obtain ⟨k, hk, rfl⟩ := List.getElem_of_mem hxm
    have hL : 0 < Real.log (b / a) := Real.log_pos (by rw [lt_div_iff₀ ha]; linarith)
    have hba : 0 < b / a := div_pos (lt_trans ha hab) ha
    obtain ⟨p, q⟩ := h2.2 k hk
    have hn1 : (2 : ℝ) ≤ n := by exact_mod_cast hn
    have hr : m.bins[k].hi / m.bins[k].lo = (b / a) ^ ((1 : ℝ) / n) := by
      rw [p, q, mul_div_mul_left _ _ ha.ne', ← Real.rpow_sub hba]
      congr 1
      field_simp
      ring
    rw [hr, Real.log_rpow hba, one_div, inv_mul_eq_div]
    exact div_lt_div_of_pos_left hL (by linarith) (by linarith)

/-- A map made and filled, in any way. -/
theorem within_ok {nx ny : Nat} {m : Map} (hI : Inv nx ny m) (dir : ℝ × ℝ) (e : ℝ) (border : Nat) :
    ∃ r, withinBounds project m dir e border = .ok r ∧
      (r = true ↔ ∃ i j k, (InPixel i (project m.geom dir).1 ∧ border ≤ i ∧ i + border < nx) ∧
        (InPixel j (project m.geom dir).2 ∧ border ≤ j ∧ j + border < ny) ∧
        (∃ b, m.bins[k]? = some b ∧ InBin b e) ∧ border ≤ k ∧ k + border < m.bins.length) := by
  obtain ⟨eb, hb, hm⟩ := hI.binners
  have hl : [(project m.geom dir).1, (project m.geom dir).2, e].length =
      [pixelBinner nx, pixelBinner ny, eb].length := rfl
  have hiff : ∀ iv, findBins border [pixelBinner nx, pixelBinner ny, eb]
      [(project m.geom dir).1, (project m.geom dir).2, e] = some iv ↔ _ := fun iv => findBins_iff hl
  unfold withinBounds Hist.binIndexOf
  rw [hb]
  simp only
  rw [if_neg (by simp)]
  cases hf : findBins border [pixelBinner nx, pixelBinner ny, eb]
      [(project m.geom dir).1, (project m.geom dir).2, e] with
  | none =>
    refine ⟨false, rfl, ⟨(fun h => by cases h), ?_⟩⟩
    rintro ⟨i, j, k, hi, hj, hk⟩
    have := (hiff [i, j, k]).2 ((falls_border hm border (by omega) (by omega)
      (by omega) _ _ _).2 ⟨hi, hj, hk⟩)
    rw [hf] at this; cases this
  | some iv =>
    simp only
    have hfa := (hiff iv).1 hf
    have hlen : iv.length = 3 := by
      unfold FallsIn at hfa
      have := hfa.length_eq
      simpa using this.symm
    match iv, hlen with
    | [i, j, k], _ =>
      have hbi : m.hist.binIndex [i, j, k] = .ok ((List.zipWith (· * ·) m.hist.strides [i, j, k]).foldl (· + ·) 0) := by
        unfold Hist.binIndex
        rw [hb, if_neg (by simp)]
      rw [hbi]
      simp only [Res.bind_ok]
      refine ⟨true, rfl, ⟨fun _ => ?_, fun _ => rfl⟩⟩
      have hr : i < nx ∧ j < ny ∧ k < m.bins.length := by
        have h2 := hfa
        unfold FallsIn at h2
        simp only [List.zip_cons_cons, List.forall₂_cons, List.zip_nil_right] at h2
        obtain ⟨⟨_, _, q1⟩, ⟨_, _, q2⟩, ⟨_, _, q3⟩, _⟩ := h2
        rw [hm.1] at q3
        have e1 : (pixelBinner nx).n = nx := rfl
        have e2 : (pixelBinner ny).n = ny := rfl
        rw [e1] at q1; rw [e2] at q2
        omega
      exact ⟨i, j, k, (falls_border hm border hr.1 hr.2.1 hr.2.2 _ _ _).1 hfa⟩

/-- C118 (partial).  Whether a direction and an energy are in the map, without a border; missing: a
border is also applied to the energies, see `C118_border_violates`. -/
theorem C118_within_partial (g : Geom) (ra dec : String) {nx ny : Nat} (hx : 0 < nx) (hy : 0 < ny)
    {b : Bins} (hg : Good b) (ts : List (List Event)) (dir : ℝ × ℝ) (e : ℝ) :
    ∃ m0 m l r, make g ra dec nx ny b = .ok m0 ∧ binAll project m0 ts = .ok m ∧ Asked b l ∧
      withinBounds project m dir e 0 = .ok r ∧
      (r = true ↔ (∃ i < nx, InPixel i (project g dir).1) ∧ (∃ j < ny, InPixel j (project g dir).2) ∧
        ∃ x ∈ l, InBin x e) := by
  obtain ⟨m0, h1, hI, h2, h3, hg', _⟩ := make_ok g ra dec hx hy hg
  obtain ⟨m, k1, k2, k3, _, k5⟩ := binAll_ok (project := project) ts m0 hI
  have e1 : m.bins = m0.bins := by rw [k3]
  have e2 : m.geom = g := by rw [k3]; exact hg'
  obtain ⟨r, r1, r2⟩ := within_ok (project := project) k2 dir e 0
  refine ⟨m0, m, m0.bins, r, h1, k1, h2, r1, r2.trans ?_⟩
  rw [e1, e2]
  constructor
  · rintro ⟨i, j, k, ⟨p1, _, p3⟩, ⟨q1, _, q3⟩, ⟨x, x1, x2⟩, _⟩
    exact ⟨⟨i, by omega, p1⟩, ⟨j, by omega, q1⟩, x, List.mem_of_getElem? x1, x2⟩
  · rintro ⟨⟨i, hi, p⟩, ⟨j, hj, q⟩, x, hx', x2⟩
    obtain ⟨k, hk, rfl⟩ := List.getElem_of_mem hx'
    exact ⟨i, j, k, ⟨p, by omega, by omega⟩, ⟨q, by omega, by omega⟩,
      ⟨_, List.getElem?_eq_getElem hk, x2⟩, by omega, by omega⟩

/-- C118 (violation).  With a border no direction at all is in a map that has not more than twice as
many energy bins. -/
theorem C118_border_violates (g : Geom) (ra dec : String) {nx ny : Nat} (hx : 0 < nx) (hy : 0 < ny)
    {b : Bins} (hg : Good b) (border : Nat) (hn : ∀ l, Asked b l → l.length ≤ 2 * border)
    (dir : ℝ × ℝ) (e : ℝ) :
    ∃ m, make g ra dec nx ny b = .ok m ∧ withinBounds project m dir e border = .ok false := by
  obtain ⟨m, h1, hI, h2, _⟩ := make_ok g ra dec hx hy hg
  obtain ⟨r, r1, r2⟩ := within_ok (project := project) hI dir e border
  refine ⟨m, h1, ?_⟩
  cases r with
  | false => exact r1
  | true =>
    obtain ⟨i, j, k, _, _, _, h5, h6⟩ := r2.1 rfl
    have := hn _ h2
    omega

/-- C118 (partial).  The list of pixels has pixel `(i, j)` where the counts of this pixel are; if the
middle and the corners are on the sky it has the direction of the middle and the solid angle.
Missing: see `C118_pixel_violates`. -/
theorem C118_pixels_partial {D : Type} (dir : ℝ × ℝ → Option D) (solid : D → D → D → D → ℝ) (dflt : D)
    {nx ny : Nat} {i j : Nat} (hi : i < nx) (hj : j < ny) :
    ∃ p, (getPixels dir solid dflt nx ny)[i + nx * j]? = some p ∧
      (OnSky dir i j → IsPixel dir solid i j p) ∧ (¬ OnSky dir i j → p = (dflt, 0)) := by
  have hax : ∀ n, 0 < n → ((axisVector n).zip (axisVector n).tail) =
      (List.range n).map (fun k : Nat => ((k : ℝ) + 1 / 2, (k : ℝ) + 3 / 2)) := by
    intro n hn
    have hv : axisVector n = (List.range (n + 1)).map (fun k : Nat => 0.5 + (k : ℝ)) := by
      unfold axisVector
      rw [List.range_succ, List.map_append]
      congr 1
      have : ((n - 1 : Nat) : ℝ) = (n : ℝ) - 1 := by rw [Nat.cast_sub hn]; simp
      simp only [List.map_cons, List.map_nil, List.cons.injEq, and_true]
      rw [this]; ring
    rw [hv]
    apply List.ext_getElem
    · simp
    · intro k h1 h2
      simp only [List.getElem_zip, List.getElem_map, List.getElem_range, List.getElem_tail]
      push_cast
      rw [Prod.mk.injEq]
      constructor <;> norm_num <;> ring
  have hget : (getPixels dir solid dflt nx ny)[i + nx * j]? = some (pixelAt dir solid dflt
      ((i : ℝ) + 1 / 2) ((i : ℝ) + 3 / 2) ((j : ℝ) + 1 / 2) ((j : ℝ) + 3 / 2)) := by
    unfold getPixels
    simp only
    rw [hax nx (by omega), hax ny (by omega), List.flatMap_map]
    rw [show i + nx * j = j * nx + i by ring]
    rw [TsMap.flat_get _ nx ny (by simp) i j hi hj]
    simp only [List.getElem?_map]
    rw [List.getElem?_range hi]
    rfl
  refine ⟨_, hget, ?_, ?_⟩
  · intro hs
    obtain ⟨s1, s2, s3, s4, s5⟩ := hs
    obtain ⟨d, d1⟩ := Option.isSome_iff_exists.1 s1
    obtain ⟨a, d2⟩ := Option.isSome_iff_exists.1 s2
    obtain ⟨b, d3⟩ := Option.isSome_iff_exists.1 s3
    obtain ⟨c, d4⟩ := Option.isSome_iff_exists.1 s4
    obtain ⟨e, d5⟩ := Option.isSome_iff_exists.1 s5
    unfold pixelAt
    have m1 : ((i : ℝ) + 1 / 2 + ((i : ℝ) + 3 / 2)) / 2 = (i : ℝ) + 1 := by ring
    have m2 : ((j : ℝ) + 1 / 2 + ((j : ℝ) + 3 / 2)) / 2 = (j : ℝ) + 1 := by ring
    rw [m1, m2, d1, d2, d3, d4, d5]
    exact ⟨d1, a, b, c, e, d2, d3, d4, d5, rfl⟩
  · intro hs
    unfold pixelAt
    have m1 : ((i : ℝ) + 1 / 2 + ((i : ℝ) + 3 / 2)) / 2 = (i : ℝ) + 1 := by ring
    have m2 : ((j : ℝ) + 1 / 2 + ((j : ℝ) + 3 / 2)) / 2 = (j : ℝ) + 1 := by ring
    rw [m1, m2]
    unfold OnSky at hs
    split
    · rename_i d a b c e d1 d2 d3 d4 d5
      exact absurd (by rw [d1, d2, d3, d4, d5]; simp) hs
    · rfl

/-- C118 (violation).  A pixel whose middle is on the sky but one of whose corners is not is listed with
another direction. -/
theorem C118_pixel_violates {D : Type} (dir : ℝ × ℝ → Option D) (solid : D → D → D → D → ℝ) (dflt d : D)
    {nx ny : Nat} {i j : Nat} (hi : i < nx) (hj : j < ny)
    (hm : dir ((i : ℝ) + 1, (j : ℝ) + 1) = some d) (hd : d ≠ dflt)
    (hc : dir ((i : ℝ) + 1 / 2, (j : ℝ) + 1 / 2) = none) :
    ∃ p, (getPixels dir solid dflt nx ny)[i + nx * j]? = some p ∧ p.1 ≠ d ∧ p.2 = 0 := by
  obtain ⟨p, h1, _, h3⟩ := C118_pixels_partial dir solid dflt hi hj
  have := h3 (by rintro ⟨_, h, _⟩; rw [hc] at h; cases h)
  subst this
  exact ⟨_, h1, fun h => hd h.symm, rfl⟩

/-! ### HEALPix -/

/-- A HEALPix map with these energy bins. -/
def HpxOf (m : HpxMap) (l : List Interval) : Prop :=
  ∃ pb : Binner ℝ, m.hist.binners = [pb, orderedBinner l]

/-- C118 (violation).  If all energies are larger than the number of energy bins, as is the case for
energies in MeV, no event is ever counted in a HEALPix map, and nothing is found to be in it. -/
theorem C118_hpx_violates {m : HpxMap} {l : List Interval} (hm : HpxOf m l)
    (hl : ∀ x ∈ l, (l.length : ℝ) ≤ x.lo) :
    (∀ es, hpxBinInput m es = .ok m) ∧ ∀ s e border, hpxWithinBounds m s e border = .ok false := by
  obtain ⟨pb, hb⟩ := hm
  have hidx : ∀ e : ℝ, (orderedBinner l).index (((orderedBinner l).index e : Int) : ℝ) = -1 := by
    intro e
    have hlt : (((orderedBinner l).index e : Int) : ℝ) < l.length := by
      have : (orderedBinner l).index e < (l.length : Int) := by
        unfold orderedBinner
        simp only
        generalize hf : List.findIdx? _ l = o
        cases o with
        | none => simp only; omega
        | some i =>
          simp only
          rw [List.findIdx?_eq_some_iff_getElem] at hf
          obtain ⟨hi, _⟩ := hf
          exact_mod_cast hi
      exact_mod_cast this
    generalize (((orderedBinner l).index e : Int) : ℝ) = v at hlt
    unfold orderedBinner
    simp only
    generalize hf : List.findIdx? _ l = o
    cases o with
    | none => rfl
    | some i =>
      rw [List.findIdx?_eq_some_iff_getElem] at hf
      obtain ⟨hi, h1, _⟩ := hf
      rw [decide_eq_true_iff] at h1
      have := hl l[i] (List.getElem_mem hi)
      have := h1.1
      linarith
  have hnone : ∀ (x e : ℝ) (border : Nat), m.hist.binIndexOf
      [x, (((orderedBinner l).index e : Int) : ℝ)] border = .ok none := by
    intro x e border
    unfold Hist.binIndexOf
    rw [hb, if_neg (by simp)]
    have : findBins border [pb, orderedBinner l] [x, (((orderedBinner l).index e : Int) : ℝ)] = none := by
      rw [findBins, findBins, hidx]
      split
      · rfl
      · rw [if_pos (by omega)]; rfl
    rw [this]
  have hv : ∀ s e, hpxValues m s e = .ok [((m.pix s : Int) : ℝ), (((orderedBinner l).index e : Int) : ℝ)] := by
    intro s e
    unfold hpxValues
    rw [hb]; rfl
  constructor
  · intro es
    induction es with
    | nil => rfl
    | cons e es ih =>
      rw [hpxBinInput, hv, Res.bind_ok]
      unfold Hist.fillBin
      rw [hnone]
      simp only [Res.bind_ok]
      exact ih
  · intro s e border
    unfold hpxWithinBounds
    rw [hv, Res.bind_ok, hnone]
    rfl

/-- C118 (partial).  Counting in a HEALPix map is right if each bin contains its own number, and the
binner for pixels gives each number back.  Missing: all energies there are, see
`C118_hpx_violates`. -/
theorem C118_hpx_partial {l : List Interval} (hd : l.Pairwise (fun x y => x.hi ≤ y.lo))
    (hown : ∀ k, (hk : k < l.length) → InBin l[k] (k : ℝ)) (hneg : ∀ x ∈ l, 0 ≤ x.lo) (pb : Binner ℝ)
    (hpb : ∀ i : Int, pb.index (i : ℝ) = i) (es : List Event) :
    ∀ (m : HpxMap), m.hist.Ok → m.hist.binners = [pb, orderedBinner l] →
      ∃ m', hpxBinInput m es = .ok m' ∧ m'.hist.Ok ∧ ∀ p < pb.n, ∀ k < l.length,
        val m'.hist.data (p + pb.n * k) = val m.hist.data (p + pb.n * k) +
          hpxNumber (fun e => m.pix (if m.gal then (e "L", e "B") else (e "RA", e "DEC"))) l p k es := by
  have hm := ordered_matches hd
  have hbin : ∀ (e : ℝ) (k : Nat), k < l.length →
      ((orderedBinner l).index (((orderedBinner l).index e : Int) : ℝ) = (k : Int) ↔
        ∃ b, l[k]? = some b ∧ InBin b e) := by
    intro e k hk
    rw [← hm.2 e k hk]
    constructor
    · intro h
      obtain ⟨b, hb, h1, h2⟩ := (hm.2 _ k hk).1 h
      -- the index is that of some bin or -1
      have hge : 0 ≤ (orderedBinner l).index e := by
        have := hneg b (List.mem_of_getElem? hb)
        have h3 : (0 : ℝ) ≤ (((orderedBinner l).index e : Int) : ℝ) := le_trans this h1
        exact_mod_cast h3
      have hlt : (orderedBinner l).index e < (l.length : Int) := by
        unfold orderedBinner
        simp only
        generalize hf : List.findIdx? _ l = o
        cases o with
        | none => simp only; omega
        | some i =>
          simp only
          rw [List.findIdx?_eq_some_iff_getElem] at hf
          obtain ⟨hi, _⟩ := hf
          exact_mod_cast hi
      obtain ⟨q, hq⟩ := Int.eq_ofNat_of_zero_le hge
      have hql : q < l.length := by omega
      have := (hm.2 (q : ℝ) q hql).2 ⟨l[q], List.getElem?_eq_getElem hql, hown q hql⟩
      rw [hq] at h ⊢
      rw [Int.cast_natCast] at h
      rw [← h, this]
    · intro h
      rw [h]
      rw [Int.cast_natCast]
      exact (hm.2 _ k hk).2 ⟨l[k], List.getElem?_eq_getElem hk, hown k hk⟩
  induction es with
  | nil => intro m ho hb; exact ⟨m, rfl, ho, fun p _ k _ => by simp [hpxNumber]⟩
  | cons e es ih =>
    intro m ho hb
    set s := (if m.gal then (e "L", e "B") else (e "RA", e "DEC")) with hs
    have hv : hpxValues m s (e "ENERGY") =
        .ok [((m.pix s : Int) : ℝ), (((orderedBinner l).index (e "ENERGY") : Int) : ℝ)] := by
      unfold hpxValues
      rw [hb]; rfl
    obtain ⟨h', g1, g2, g3, g4⟩ := C23_fill m.hist ho
      [((m.pix s : Int) : ℝ), (((orderedBinner l).index (e "ENERGY") : Int) : ℝ)] 1 (by rw [hb]; rfl)
    obtain ⟨m', k1, k2, k3⟩ := ih { m with hist := h' } g2 (by rw [← hb]; exact g3)
    refine ⟨m', ?_, k2, ?_⟩
    · rw [hpxBinInput, hv, Res.bind_ok, g1, Res.bind_ok]; exact k1
    · intro p hp k hk
      rw [k3 p hp k hk]
      simp only
      have hdim : ∀ h : Hist ℝ ℝ, h.binners = [pb, orderedBinner l] → h.at [p, k] = val h.data (p + pb.n * k) := by
        intro h hh
        unfold Hist.at Hist.dims
        rw [hh]; simp [cell]
      have g5 := g4 [p, k] (by
        unfold InRange Hist.dims
        rw [hb]
        exact List.Forall₂.cons hp (List.Forall₂.cons (by rw [hm.1]; exact hk) List.Forall₂.nil))
      rw [hdim _ (g3.trans hb), hdim _ hb, hb] at g5
      have hf : FallsIn 0 [pb, orderedBinner l]
          [((m.pix s : Int) : ℝ), (((orderedBinner l).index (e "ENERGY") : Int) : ℝ)] [p, k] ↔
          (m.pix s = (p : Int) ∧ ∃ b, l[k]? = some b ∧ InBin b (e "ENERGY")) := by
        unfold FallsIn
        simp only [List.zip_cons_cons, List.forall₂_cons, List.zip_nil_right,
          List.forall₂_nil_right_iff, and_true]
        rw [hpb, hbin _ k hk, hm.1]
        constructor
        · rintro ⟨⟨h1, _⟩, h2, _⟩; exact ⟨h1, h2⟩
        · rintro ⟨h1, h2⟩; exact ⟨⟨h1, by omega, by omega⟩, h2, by omega, by omega⟩
      unfold hpxNumber
      rw [List.countP_cons]
      by_cases hc : m.pix s = (p : Int) ∧ ∃ b, l[k]? = some b ∧ InBin b (e "ENERGY")
      · rw [g5.1 (hf.2 hc), if_pos (by simpa using hc)]
        push_cast; ring
      · rw [g5.2 (fun h => hc (hf.1 h)), if_neg (by simpa using hc)]
        push_cast; ring

/-! ### The hypotheses can be met -/

/-- An event at these coordinates with this energy. -/
def exEvent (x y e : ℝ) : Event := fun f => if f = "RA" then x else if f = "DEC" then y else e

/-- A flat projection. -/
def exGeom : Geom := ⟨"CAR", (1, 1), (1, 1), (1, 1), 0, false⟩

/-- Three bins, four pixels, three events of which one is outside: the map holds one event in the first
and one in the last cell. -/
example : ∃ m0 m l, make exGeom "RA" "DEC" 2 2 (.edges [100, 300, 1000, 3000]) = .ok m0 ∧
    binAll (fun _ p => p) m0 [[exEvent 1 1 150, exEvent 1 7 150], [exEvent 2 2 2000]] = .ok m ∧
    Asked (.edges [100, 300, 1000, 3000]) l ∧
    Holds 2 2 l (fun e => (e "RA", e "DEC")) m.hist.data
      [exEvent 1 1 150, exEvent 1 7 150, exEvent 2 2 2000] := by
  obtain ⟨m0, m, l, h1, h2, h3, _, h5⟩ := C118_counts (project := fun _ p => p) exGeom "RA" "DEC"
    (nx := 2) (ny := 2) (by norm_num) (by norm_num) (b := .edges [100, 300, 1000, 3000])
    ⟨by simp, by norm_num⟩ [[exEvent 1 1 150, exEvent 1 7 150], [exEvent 2 2 2000]]
  exact ⟨m0, m, l, h1, h2, h3, h5⟩

/-- The events of the example are in the cells they should be in. -/
example : InCell (fun e => (e "RA", e "DEC")) [⟨100, 300⟩, ⟨300, 1000⟩, ⟨1000, 3000⟩] 0 0 0 (exEvent 1 1 150) ∧
    InCell (fun e => (e "RA", e "DEC")) [⟨100, 300⟩, ⟨300, 1000⟩, ⟨1000, 3000⟩] 1 1 2 (exEvent 2 2 2000) := by
  refine ⟨⟨?_, ?_, ⟨100, 300⟩, rfl, ?_⟩, ⟨?_, ?_, ⟨1000, 3000⟩, rfl, ?_⟩⟩ <;>
    simp [InPixel, InBin, exEvent] <;> norm_num

/-- Bins given by their edges, and logarithmic bins, have no gaps. -/
example (l : List Interval) (es : List ℝ) (h : Asked (.edges es) l) : Gapless l := by
  unfold Gapless
  rw [List.isChain_iff_getElem]
  intro k hk
  rw [(h.2 k (by omega)).2, (h.2 (k + 1) hk).1]

example (l : List Interval) (a b : ℝ) (n : Nat) (h : Asked (.log a b n) l) : Gapless l := by
  unfold Gapless
  rw [List.isChain_iff_getElem]
  intro k hk
  rw [(h.2 k (by omega)).2, (h.2 (k + 1) hk).1]
  push_cast
  rfl

/-- An event in a gap. -/
example : ∃ m f m1 m' m1', make exGeom "RA" "DEC" 2 2 (.pairs [100, 1000] [300, 3000]) = .ok m ∧
    writeOutput m = .ok f ∧ read f = .ok m1 ∧ m1.geom = m.geom ∧ m1.energies = m.energies ∧
    binInput (fun _ p => p) m [exEvent 1 1 500] = .ok m' ∧ val m'.hist.data 0 = 0 ∧
    binInput (fun _ p => p) m1 [exEvent 1 1 500] = .ok m1' ∧ val m1'.hist.data 0 = 1 :=
  C118_gap_violates (project := fun _ p => p) exGeom (by norm_num) (by norm_num) (by norm_num) (by norm_num)
    (by norm_num) (exEvent 1 1 500) (by simp [exEvent]; norm_num)
    (by simp [exEvent]; norm_num)
    (by constructor <;> simp [InPixel, exEvent] <;> norm_num)

/-- A file with two energy bins and one plane. -/
example : ∃ m, read ⟨1, 1, 1, [0], [(100000, 300000), (300000, 1000000)], ("RA", "CAR"), (1, 1), (1, 1), (1, 1),
      0, some 1⟩ = .ok m ∧
    (m.geom.gal = false → binInput (fun _ p => p) m [exEvent 1 1 500] = .ub) := by
  obtain ⟨m, h1, h2⟩ := C118_mismatch_violates (project := fun _ p => p)
    (f := ⟨1, 1, 1, [0], [(100000, 300000), (300000, 1000000)], ("RA", "CAR"), (1, 1), (1, 1), (1, 1),
      0, some 1⟩) (l := [⟨100, 300⟩, ⟨300, 1000⟩]) (by norm_num) (by norm_num) (by simp; norm_num) (by simp)
    (by intro x hx; simp at hx; rcases hx with rfl | rfl <;> norm_num)
    (List.isChain_cons_cons.2 ⟨rfl, List.isChain_singleton _⟩) rfl
  refine ⟨m, h1, fun _ => h2 0 0 1 (exEvent 1 1 500) (by norm_num) (by norm_num) (by norm_num) ?_⟩
  refine ⟨?_, ?_, ⟨300, 1000⟩, rfl, ?_⟩ <;> simp [InPixel, InBin, exEvent] <;> norm_num

/-- With a border of four pixels, as is used for point sources, a map of eight energy bins is never
used. -/
example : ∃ m, make exGeom "RA" "DEC" 100 100 (.log 100 100000 8) = .ok m ∧
    withinBounds (fun _ p => p) m (50, 50) 3000 4 = .ok false :=
  C118_border_violates (project := fun _ p => p) exGeom "RA" "DEC" (by norm_num) (by norm_num)
    (b := .log 100 100000 8) ⟨by norm_num, by norm_num, by norm_num⟩ 4 (fun l h => by rw [h.1]) (50, 50) 3000

/-- The hypotheses for the right counts in a HEALPix map: bins `[0, 1)` and `[1, 2)`. -/
example : ∀ k, (hk : k < [(⟨0, 1⟩ : Interval), ⟨1, 2⟩].length) → InBin [(⟨0, 1⟩ : Interval), ⟨1, 2⟩][k] (k : ℝ) := by
  intro k hk
  have : k = 0 ∨ k = 1 := by simp at hk; omega
  rcases this with rfl | rfl <;> simp [InBin]

/-- Bins in MeV, for which nothing is counted. -/
example : ∀ x ∈ [(⟨100, 300⟩ : Interval), ⟨300, 1000⟩], (([(⟨100, 300⟩ : Interval), ⟨300, 1000⟩].length : Nat) : ℝ) ≤ x.lo := by
  intro x hx
  simp at hx
  rcases hx with rfl | rfl <;> norm_num

end Verif.CntMap
