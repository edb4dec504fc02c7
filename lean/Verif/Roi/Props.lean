import Verif.Roi.Lemmas

set_option linter.unusedSimpArgs false
set_option linter.unusedVariables false

/-! # Properties C25 (event selection) and C35 (energy grid and time range) -/

namespace Verif.Roi

open Spec

/-- The constructor's object (`Likelihood/RoiCuts.h:50-53`), up to its energy vector, cone and
zenith limit, which no theorem here reads. -/
noncomputable def fresh : RoiCuts :=
  ⟨none, 20, 200000, [], ⟨0, 0, 180⟩, -1, none, none, [], [], 0, 0⟩

/-! ## C25 -/

/-- **C25**, part.  Without time range cuts, and also with exactly one such cut and no good time
intervals, an event is accepted exactly when it passes all cuts.  The remaining case, a time range
cut together with good time intervals or with another time range cut, is wrong in the code. -/
theorem C25_accept_partial (r : RoiCuts) (e : Event)
    (h : r.timeRanges = [] ∨ (r.gtis = [] ∧ r.timeRanges.length = 1)) :
    accept r e = true ↔ Passes r e := by
  rw [accept_iff]
  unfold Passes
  rcases h with h | ⟨h, hl⟩
  · rw [h, timeRangeLoop, decide_eq_true_eq]
    simp
  · obtain ⟨t, ht⟩ := List.length_eq_one_iff.mp hl
    rw [ht, h]
    simp [timeRangeLoop]

/-- **C25**: whatever the cuts, an accepted event is in the energy range, in the region, above
the zenith limit, and in the last time range cut. -/
theorem C25_accept_sound_partial (r : RoiCuts) (e : Event) (h : accept r e = true) :
    (r.eMin ≤ e.energy ∧ e.energy ≤ r.eMax) ∧ e.sep r.cone.ra r.cone.dec ≤ r.cone.radius ∧
    r.muZenMax ≤ e.muZenith ∧ ∀ t, r.timeRanges.getLast? = some t → t.accepts e.time = true := by
  obtain ⟨h1, h2, h3, h4⟩ := (accept_iff r e).mp h
  refine ⟨h2, h3, h4, ?_⟩
  intro t ht
  obtain ⟨ts, hts⟩ := List.getLast?_eq_some_iff.mp ht
  rw [hts, timeRangeLoop_last] at h1
  exact h1

/-- **C25**: no event passing all the cuts is ever rejected. -/
theorem C25_accept_complete (r : RoiCuts) (e : Event) (h : Passes r e) : accept r e = true := by
  obtain ⟨h1, h2, h3, h4, h5⟩ := h
  rw [accept_iff]
  refine ⟨?_, h3, h4, h5⟩
  rcases List.eq_nil_or_concat r.timeRanges with h | ⟨ts, t, h⟩
  · rw [h, timeRangeLoop, decide_eq_true_eq]
    exact h1
  · rw [List.concat_eq_append] at h
    rw [h, timeRangeLoop_last]
    exact h2 t (by rw [h]; simp)

/-- **C25** is false: as soon as there is a time range cut, the good time intervals and all the
other time range cuts are without effect.  Any object whose last time range accepts a time outside
its good time intervals accepts an event that does not pass the cuts. -/
theorem C25_violates (r : RoiCuts) (t : Range) (time : ℝ)
    (ht : r.timeRanges.getLast? = some t) (hacc : t.accepts time = true)
    (hout : (r.gtis ≠ [] ∧ ∀ g ∈ r.gtis, g.accepts time = false) ∨
      ∃ s ∈ r.timeRanges, s.accepts time = false)
    (hE : r.eMin ≤ r.eMax) (hR : 0 ≤ r.cone.radius) :
    ∃ e : Event, e.time = time ∧ accept r e = true ∧ ¬ Passes r e := by
  refine ⟨⟨time, r.eMin, fun _ _ => 0, r.muZenMax⟩, rfl, ?_, ?_⟩
  · rw [accept_iff]
    refine ⟨?_, ⟨le_refl _, hE⟩, hR, le_refl _⟩
    obtain ⟨ts, hts⟩ := List.getLast?_eq_some_iff.mp ht
    rw [hts, timeRangeLoop_last]
    exact hacc
  · rintro ⟨h1, h2, -⟩
    rcases hout with ⟨hn, hg⟩ | ⟨s, hs, hf⟩
    · rcases h1 with h | ⟨g, hgm, hga⟩
      · exact hn h
      · have := hg g hgm
        simp only at hga
        rw [this] at hga
        cases hga
    · have := h2 s hs
      simp only at this
      rw [hf] at this
      cases this

/-- **C25**, from the file to the event: reading into a fresh object the cuts of a file with one
closed energy range, one cone, at least one good time interval cut and no time range cut succeeds,
and events are accepted exactly when inside the energy range, the cone and one of the good time
intervals (the zenith limit is -1, below every cosine). -/
theorem C25_read_accept_partial (sup : Range → Range → Bool) (strict : Bool) (r : RoiCuts)
    (hr1 : r.gtis = []) (hr2 : r.timeRanges = []) {cs : List Cut}
    {en : Range} {c : Cone} (he : energyRanges cs = [en]) (hcl : en.closed = true)
    (hlo : 0 < en.lo) (hhi : 0 < en.hi) (hc : cones cs = [c]) (hg : gtis cs ≠ [])
    (ht : Spec.timeRanges cs = []) :
    ∃ r', readCuts sup strict r cs = .ok r' ∧
      ∀ e : Event, -1 ≤ e.muZenith →
        (accept r' e = true ↔
          (∃ g ∈ gtis cs, g.accepts e.time = true) ∧ (en.lo ≤ e.energy ∧ e.energy ≤ en.hi) ∧
          e.sep c.ra c.dec ≤ c.radius) := by
  rcases hgs : gtis cs with _ | ⟨g, gs⟩
  · exact absurd hgs hg
  obtain ⟨r', h, k1, k2, k3, k4, k5, k6, -⟩ := readCuts_ok sup strict r he hcl hlo hhi hc hgs
  refine ⟨r', h, ?_⟩
  intro e hmu
  rw [hr1, List.nil_append] at k4
  rw [hr2, ht, List.nil_append] at k5
  rw [C25_accept_partial r' e (Or.inl k5), Passes, k1, k2, k3, k4, k5, k6]
  simp [hmu]

/-- **C25** is false for an object used twice: reading the cuts of a second file keeps the good
time intervals of the first, so events outside every good time interval of the file last read are
accepted. -/
theorem C25_reread_violates (sup : Range → Range → Bool) (strict : Bool) (r : RoiCuts)
    (hr2 : r.timeRanges = []) {old : Gti} (hold : old ∈ r.gtis) {cs : List Cut}
    {en : Range} {c : Cone} (he : energyRanges cs = [en]) (hcl : en.closed = true)
    (hlo : 0 < en.lo) (hhi : en.lo ≤ en.hi) (hc : cones cs = [c]) (hcr : 0 ≤ c.radius)
    (hg : gtis cs ≠ []) (ht : Spec.timeRanges cs = []) (time : ℝ)
    (hin : old.accepts time = true) (hout : ∀ g ∈ gtis cs, g.accepts time = false) :
    ∃ r', readCuts sup strict r cs = .ok r' ∧
      ∃ e : Event, e.time = time ∧ accept r' e = true := by
  rcases hgs : gtis cs with _ | ⟨g, gs⟩
  · exact absurd hgs hg
  obtain ⟨r', h, k1, k2, k3, k4, k5, k6, -⟩ :=
    readCuts_ok sup strict r he hcl hlo (lt_of_lt_of_le hlo hhi) hc hgs
  refine ⟨r', h, ⟨time, en.lo, fun _ _ => 0, 0⟩, rfl, ?_⟩
  rw [hr2, ht, List.nil_append] at k5
  rw [C25_accept_partial r' _ (Or.inl k5), Passes, k1, k2, k3, k4, k5, k6]
  refine ⟨Or.inr ⟨old, List.mem_append_left _ hold, hin⟩, by simp, ⟨le_refl _, hhi⟩, hcr, ?_⟩
  norm_num

/-- **C25**: strict reading refuses files without exactly one cone or without any time cut, and
reading always refuses files without good time intervals. -/
theorem C25_read_refuses (sup : Range → Range → Bool) (strict : Bool) (r r' : RoiCuts)
    {cs : List Cut} (h : readCuts sup strict r cs = .ok r') :
    gtis cs ≠ [] ∧ (strict = true → (cones cs).length = 1) ∧ 0 < r'.eMin := by
  unfold readCuts at h
  obtain ⟨r1, hs, h⟩ := Res.bind_eq_ok.mp h
  unfold sortCuts at hs
  simp only at hs
  obtain ⟨p, hp, hs⟩ := Res.bind_eq_ok.mp hs
  obtain ⟨k1, k2, k3, k4, k5, k6⟩ := sortLoop_ok sup (r' := p.1) (n' := p.2) hp
  split at hs
  · cases hs
  rename_i hstr
  simp only [Res.ok.injEq] at hs
  subst hs
  unfold setRoiData at h
  rw [k4] at h
  simp only [gtiCuts_eq] at h
  refine ⟨?_, ?_, ?_⟩
  · intro hg
    rw [hg] at h
    cases h
  · intro hst
    rw [hst] at hstr
    by_contra hne
    apply hstr
    have : p.2.ncone ≠ 1 := by rw [k5]; simpa using hne
    simp [this]
  · split at h
    · cases h
    · unfold setCuts at h
      obtain ⟨es, he, h⟩ := Res.bind_eq_ok.mp h
      simp only [Res.ok.injEq] at h
      rw [← h]
      exact makeEnergyVector_pos he

/-- **C25**: adding a time interval asks of an event, besides the cuts there were, that its time
be in the interval. -/
theorem C25_add_time (r : RoiCuts) (tmin tmax : ℝ) (e : Event) :
    Passes (addTimeInterval r tmin tmax) e ↔ Passes r e ∧ tmin ≤ e.time ∧ e.time ≤ tmax := by
  have hb : ∀ t, between tmin tmax t = true ↔ tmin ≤ t ∧ t ≤ tmax := by simp [between]
  rcases hg : r.gtis with _ | ⟨g, gs⟩
  · simp only [addTimeInterval, hg, Passes, List.mem_append, List.mem_singleton, List.mem_cons,
      List.not_mem_nil, or_false, reduceCtorEq, false_or, exists_eq_left, true_or, true_and, hb]
    constructor
    · rintro ⟨h1, h2, h3⟩
      exact ⟨⟨fun t ht => h2 t (Or.inl ht), h3⟩, h1⟩
    · rintro ⟨⟨h2, h3⟩, h1⟩
      refine ⟨h1, ?_, h3⟩
      rintro t (ht | rfl)
      · exact h2 t ht
      · exact (hb _).mpr h1
  · simp only [addTimeInterval, hg, Passes, List.mem_append, List.mem_singleton, List.mem_cons,
      List.not_mem_nil, or_false, reduceCtorEq, false_or, exists_eq_or_imp, Gti.inter,
      Bool.and_eq_true, hb]
    constructor
    · rintro ⟨h1, h2, h3⟩
      have ht := (hb _).mp (h2 _ (Or.inr rfl))
      refine ⟨⟨?_, fun t ht => h2 t (Or.inl ht), h3⟩, ht⟩
      rcases h1 with h1 | h1
      · exact Or.inl h1.2
      · exact Or.inr h1
    · rintro ⟨⟨h1, h2, h3⟩, ht⟩
      refine ⟨?_, ?_, h3⟩
      · rcases h1 with h1 | h1
        · exact Or.inl ⟨ht, h1⟩
        · exact Or.inr h1
      · rintro t (h | rfl)
        · exact h2 t h
        · exact (hb _).mpr ht

/-- **C25**: setting the cuts anew together with the time limits drops the earlier time ranges
and keeps the good time intervals; of these the event test, however, takes no notice. -/
theorem C25_reset_times (r : RoiCuts) (c : Cone) {emin emax : ℝ} (h0 : 0 < emin) (h1 : 0 < emax)
    (tmin tmax mu : ℝ) :
    ∃ r', setCuts r c emin emax tmin tmax mu true = .ok r' ∧ ∀ e : Event,
      (Passes r' e ↔ (r.gtis = [] ∨ ∃ g ∈ r.gtis, g.accepts e.time = true) ∧
        (tmin ≤ e.time ∧ e.time ≤ tmax) ∧ (emin ≤ e.energy ∧ e.energy ≤ emax) ∧
        e.sep c.ra c.dec ≤ c.radius ∧ mu ≤ e.muZenith) ∧
      (accept r' e = true ↔ (tmin ≤ e.time ∧ e.time ≤ tmax) ∧
        (emin ≤ e.energy ∧ e.energy ≤ emax) ∧ e.sep c.ra c.dec ≤ c.radius ∧ mu ≤ e.muZenith) := by
  have hE := makeEnergyVector_ok (n := 100) h0 h1 (by norm_num)
  simp only [setCuts, ↓reduceIte, hE, Res.bind_ok]
  refine ⟨_, rfl, ?_⟩
  intro e
  have key := C25_add_time { r with timeRanges := [] } tmin tmax
    ⟨e.time, r.eMin, fun _ _ => r.cone.radius, r.muZenMax⟩
  have hf : (addTimeInterval { r with timeRanges := [] } tmin tmax).timeRanges =
      [⟨"TIME", tmin, tmax, true, between tmin tmax⟩] := by
    unfold addTimeInterval
    rcases hg : r.gtis with _ | ⟨g, gs⟩ <;> simp [hg]
  have hgt : ((addTimeInterval { r with timeRanges := [] } tmin tmax).gtis = [] ∨
      ∃ g ∈ (addTimeInterval { r with timeRanges := [] } tmin tmax).gtis,
        g.accepts e.time = true) ∧ (tmin ≤ e.time ∧ e.time ≤ tmax) ↔
      (r.gtis = [] ∨ ∃ g ∈ r.gtis, g.accepts e.time = true) ∧ (tmin ≤ e.time ∧ e.time ≤ tmax) := by
    rcases hg : r.gtis with _ | ⟨g, gs⟩
    · simp [addTimeInterval, hg, between]
    · simp only [addTimeInterval, hg, List.mem_cons, reduceCtorEq, false_or, exists_eq_or_imp,
        Gti.inter, Bool.and_eq_true, between, decide_eq_true_eq]
      tauto
  constructor
  · rw [← and_assoc, ← hgt, and_assoc]
    simp only [Passes, hf, List.mem_singleton, forall_eq, between, decide_eq_true_eq]
  · rw [accept_iff]
    simp only [hf, timeRangeLoop, between, decide_eq_true_eq]

/-- **C25**: a file without energy range and without cone, read without insisting on them, gives
the whole sky from 20 to 200000 MeV. -/
theorem C25_read_defaults_partial (sup : Range → Range → Bool) (r : RoiCuts)
    (hr1 : r.gtis = []) (hr2 : r.timeRanges = []) (hr3 : r.energyCut = none)
    (hr4 : r.skyCone = none) {cs : List Cut} (he : energyRanges cs = []) (hc : cones cs = [])
    (hg : gtis cs ≠ []) (ht : Spec.timeRanges cs = []) :
    ∃ r', readCuts sup false r cs = .ok r' ∧
      ∀ e : Event, -1 ≤ e.muZenith → (∀ a b, e.sep a b ≤ 180) →
        (accept r' e = true ↔
          (∃ g ∈ gtis cs, g.accepts e.time = true) ∧ 20 ≤ e.energy ∧ e.energy ≤ 200000) := by
  rcases hgs : gtis cs with _ | ⟨g, gs⟩
  · exact absurd hgs hg
  obtain ⟨r1, n1, h1, h2⟩ := sortLoop_none sup (cs := cs) { r with cuts := some cs } ⟨0, 0, 0⟩ he
  obtain ⟨k1, k2, k3, k4, k5, k6⟩ := sortLoop_ok sup h1
  have hs : sortCuts sup false { r with cuts := some cs } = .ok r1 := by
    unfold sortCuts
    simp only [h1, Res.bind_ok, Bool.false_and, Bool.false_eq_true, ↓reduceIte]
  have hk : r1.skyCone = none := by rw [k3, hc]; exact hr4
  have hen : r1.energyCut = none := h2.1.trans hr3
  have hcuts : r1.cuts = some cs := k4
  have hE := makeEnergyVector_ok (a := 20) (b := 200000) (n := 100) (by norm_num) (by norm_num)
    (by norm_num)
  unfold readCuts
  rw [hs]
  simp only [Res.bind_ok, setRoiData, hcuts, gtiCuts_eq, hgs, hen, hk, Option.getD_none, setCuts, hE,
    Bool.false_eq_true, ↓reduceIte]
  refine ⟨_, rfl, ?_⟩
  intro e hmu hsep
  rw [hr1] at k2
  simp only [List.nil_append] at k2
  rw [hr2, ht] at k1
  simp only [List.nil_append] at k1
  rw [C25_accept_partial _ e (by left; exact k1)]
  simp only [Passes, k1, k2, hgs]
  simp [hmu, hsep]

/-! ## C35 -/

/-- **C35**: the energy grid has the requested number of points, starts at the lower bound, ends
at the upper bound, is strictly increasing and its neighbours have a constant ratio. -/
theorem C35_grid {a b : ℝ} (ha : 0 < a) (hab : a < b) {n : Nat} (hn : 2 ≤ n) :
    ∃ v, makeEnergyVector a b n = .ok v ∧ LogGrid a b n v := by
  have hb : 0 < b := ha.trans hab
  have hn1 : 0 < (n : ℝ) - 1 := by
    have : (2 : ℝ) ≤ n := by exact_mod_cast hn
    linarith
  have hs : 0 < Real.log (b / a) / ((n : ℝ) - 1) :=
    div_pos (Real.log_pos ((one_lt_div ha).mpr hab)) hn1
  refine ⟨_, makeEnergyVector_ok ha hb hn, ?_⟩
  generalize hes : Real.log (b / a) / ((n : ℝ) - 1) = s at hs
  have key : ∀ (i : Nat) (x y : ℝ),
      ((List.range n).map (fun (i : Nat) => a * Real.exp (s * (i : ℝ))))[i]? = some x →
      ((List.range n).map (fun (i : Nat) => a * Real.exp (s * (i : ℝ))))[i+1]? = some y →
      x = a * Real.exp (s * i) ∧ y = Real.exp s * (a * Real.exp (s * i)) := by
    intro i x y hx hy
    have hi : i + 1 < n := by
      have := (List.getElem?_eq_some_iff.mp hy).1
      simpa using this
    rw [List.getElem?_map, List.getElem?_range (by omega)] at hx
    rw [List.getElem?_map, List.getElem?_range hi] at hy
    simp only [Option.map_some, Option.some.injEq] at hx hy
    refine ⟨hx.symm, ?_⟩
    rw [← hy]
    push_cast
    rw [mul_add, mul_one, Real.exp_add]
    ring
  refine ⟨by simp, ?_, ?_, ?_, Real.exp s, ?_⟩
  · rw [List.head?_eq_getElem?, List.getElem?_map, List.getElem?_range (by omega)]
    simp
  · rw [List.getLast?_eq_getElem?, List.length_map, List.length_range, List.getElem?_map,
      List.getElem?_range (by omega)]
    simp only [Option.map_some, Option.some.injEq]
    have hc : (((n - 1 : Nat) : ℕ) : ℝ) = (n : ℝ) - 1 := by
      rw [Nat.cast_sub (by omega)]; simp
    rw [hc, ← hes, div_mul_cancel₀ _ hn1.ne', Real.exp_log (div_pos hb ha)]
    field_simp
  · intro i x y hx hy
    obtain ⟨hx, hy⟩ := key i x y hx hy
    rw [hx, hy]
    have h1 : 0 < a * Real.exp (s * i) := mul_pos ha (Real.exp_pos _)
    have h2 : 1 < Real.exp s := Real.one_lt_exp_iff.mpr hs
    nlinarith
  · intro i x y hx hy
    obtain ⟨hx, hy⟩ := key i x y hx hy
    rw [hx, hy]

/-- **C35**: the grid held by an object after its cuts have been set. -/
theorem C35_set_cuts (r : RoiCuts) (c : Cone) {emin emax : ℝ} (h0 : 0 < emin) (h1 : emin < emax)
    (tmin tmax mu : ℝ) (reset : Bool) :
    ∃ r', setCuts r c emin emax tmin tmax mu reset = .ok r' ∧
      LogGrid emin emax 100 r'.energies ∧ r'.eMin = emin ∧ r'.eMax = emax ∧
      r'.minTime = tmin ∧ r'.maxTime = tmax ∧ r'.cone = c ∧ r'.muZenMax = mu := by
  obtain ⟨v, hv, hg⟩ := C35_grid h0 h1 (n := 100) (by norm_num)
  unfold setCuts
  simp only [hv, Res.bind_ok]
  exact ⟨_, rfl, hg, rfl, rfl, rfl, rfl, rfl, rfl⟩

/-- **C35**: a lower energy that is not positive is rejected. -/
theorem C35_rejects (r : RoiCuts) (c : Cone) {emin : ℝ} (h : emin ≤ 0) (emax tmin tmax mu : ℝ)
    (reset : Bool) : setCuts r c emin emax tmin tmax mu reset = .throws := by
  unfold setCuts makeEnergyVector
  rw [if_pos h]
  rfl

/-- **C35**, part: the start of the time range taken from a file is the least start of its good
time intervals; with a single GTI cut the end is right as well.  With several, the end is wrong. -/
theorem C35_time_partial (sup : Range → Range → Bool) (strict : Bool) (r : RoiCuts)
    {cs : List Cut} {en : Range} {c : Cone} (he : energyRanges cs = [en]) (hcl : en.closed = true)
    (hlo : 0 < en.lo) (hhi : 0 < en.hi) (hc : cones cs = [c]) (hg : gtis cs ≠ []) :
    ∃ r', readCuts sup strict r cs = .ok r' ∧
      (∀ g ∈ gtis cs, r'.minTime ≤ g.minValue) ∧ (∃ g ∈ gtis cs, r'.minTime = g.minValue) ∧
      (∀ g, gtis cs = [g] → r'.maxTime = g.maxValue) := by
  rcases hgs : gtis cs with _ | ⟨g, gs⟩
  · exact absurd hgs hg
  obtain ⟨r', h, -, -, -, -, -, -, k7, k8, -⟩ := readCuts_ok sup strict r he hcl hlo hhi hc hgs
  obtain ⟨⟨t1, t2⟩, t3, -⟩ := timeLoop_spec gs g.minValue g.maxValue
  refine ⟨r', h, ?_, ?_, ?_⟩
  · intro x hx
    rw [k7]
    rcases List.mem_cons.mp hx with rfl | hx
    · exact t1
    · exact t2 x hx
  · rw [k7]
    rcases t3 with h | ⟨x, hx, h⟩
    · exact ⟨g, List.mem_cons_self, h⟩
    · exact ⟨x, List.mem_cons_of_mem _ hx, h⟩
  · intro x hx
    simp only [List.cons.injEq] at hx
    obtain ⟨rfl, rfl⟩ := hx
    rw [k8]
    rfl

/-- **C35** is false: whenever two GTI cuts of the file end at different times, the time range
ends before one of them does. -/
theorem C35_time_violates (sup : Range → Range → Bool) (strict : Bool) (r : RoiCuts)
    {cs : List Cut} {en : Range} {c : Cone} (he : energyRanges cs = [en]) (hcl : en.closed = true)
    (hlo : 0 < en.lo) (hhi : 0 < en.hi) (hc : cones cs = [c]) {a b : Gti} (ha : a ∈ gtis cs)
    (hb : b ∈ gtis cs) (hab : a.maxValue < b.maxValue) :
    ∃ r', readCuts sup strict r cs = .ok r' ∧ ∃ g ∈ gtis cs, r'.maxTime < g.maxValue := by
  rcases hgs : gtis cs with _ | ⟨g, gs⟩
  · rw [hgs] at ha; cases ha
  obtain ⟨r', h, -, -, -, -, -, -, -, k8, -⟩ := readCuts_ok sup strict r he hcl hlo hhi hc hgs
  obtain ⟨-, -, ⟨t4, t5⟩⟩ := timeLoop_spec gs g.minValue g.maxValue
  refine ⟨r', h, b, hgs ▸ hb, ?_⟩
  rw [k8]
  rw [hgs] at ha
  rcases List.mem_cons.mp ha with rfl | ha
  · exact lt_of_le_of_lt t4 hab
  · exact lt_of_le_of_lt (t5 a ha) hab

/-! ## Concrete cases meeting the hypotheses -/

section Examples

/-- One hour, then a gap, then another hour. -/
noncomputable def g1 : Gti := ⟨0, 10, between 0 10⟩
noncomputable def g2 : Gti := ⟨20, 30, between 20 30⟩
noncomputable def en : Range := ⟨"ENERGY", 100, 1000, true, between 100 1000⟩
noncomputable def cuts : List Cut := [.gti g1, .range en, .other, .cone ⟨83, 22, 10⟩, .gti g2]

example : energyRanges cuts = [en] ∧ cones cuts = [⟨83, 22, 10⟩] ∧ gtis cuts = [g1, g2] ∧
    Spec.timeRanges cuts = [] ∧ fresh.gtis = [] ∧ fresh.timeRanges = [] := by
  simp [energyRanges, cones, gtis, Spec.timeRanges, cuts, en, fresh]

example : en.closed = true ∧ 0 < en.lo ∧ 0 < en.hi ∧ g1.maxValue < g2.maxValue := by
  refine ⟨rfl, ?_, ?_, ?_⟩ <;> norm_num [en, g1, g2]

/-- A time range cut 0–30 with the good time intervals 0–10 and 20–30: time 15 is accepted. -/
example : ∃ r : RoiCuts, ∃ t, r.timeRanges.getLast? = some t ∧ t.accepts 15 = true ∧
    (r.gtis ≠ [] ∧ ∀ g ∈ r.gtis, g.accepts 15 = false) ∧ r.eMin ≤ r.eMax ∧ 0 ≤ r.cone.radius := by
  refine ⟨{ fresh with timeRanges := [⟨"TIME", 0, 30, true, between 0 30⟩], gtis := [g1, g2] }, _,
    rfl, ?_, ⟨by simp, ?_⟩, ?_, ?_⟩
  · norm_num [between]
  · intro g hg
    simp only [List.mem_cons, List.not_mem_nil, or_false] at hg
    rcases hg with rfl | rfl <;> norm_num [between, g1, g2]
  · norm_num [fresh]
  · norm_num [fresh]

/-- The earlier range 0–30 is gone, the new range 5–8 holds. -/
example : ∃ r', setCuts { fresh with timeRanges := [⟨"TIME", 0, 30, true, between 0 30⟩] }
    ⟨83, 22, 10⟩ 100 1000 5 8 (-1) true = .ok r' ∧
    ∀ e : Event, accept r' e = true → 5 ≤ e.time ∧ e.time ≤ 8 := by
  obtain ⟨r', h, h'⟩ := C25_reset_times
    { fresh with timeRanges := [⟨"TIME", 0, 30, true, between 0 30⟩] } ⟨83, 22, 10⟩
    (by norm_num : (0 : ℝ) < 100) (by norm_num : (0 : ℝ) < 1000) 5 8 (-1)
  exact ⟨r', h, fun e he => ((h' e).2.mp he).1⟩

/-- A file with only two good time intervals, read into a fresh object. -/
example : ∃ r', readCuts (fun _ _ => false) false fresh [.gti g1, .gti g2] = .ok r' := by
  obtain ⟨r', h, -⟩ := C25_read_defaults_partial (fun _ _ => false) fresh rfl rfl rfl rfl
    (cs := [.gti g1, .gti g2]) (by simp [energyRanges]) (by simp [cones]) (by simp [gtis])
    (by simp [Spec.timeRanges])
  exact ⟨r', h⟩

example : (2 : Nat) ≤ 100 ∧ (0 : ℝ) < 20 ∧ (20 : ℝ) < 200000 := by norm_num

end Examples

end Verif.Roi
