import Verif.DmFit.Lemmas4

set_option linter.unusedSimpArgs false
set_option linter.unusedVariables false

/-!
# C142: the dark-matter spectrum
-/

namespace Verif.DmFit

open Vec Spec

/-- C142, the search: in every increasing list of bounds the search ends with the one bin that holds
the value and the place of the value therein, or says that there is none; it never stops the
program, never goes on for ever and never looks outside the list. -/
theorem C142_search {a : List ℝ} (hs : a.Pairwise (· < ·)) {imin imax : Int} (hn : -9 ≤ imin)
    (hx : imin ≤ imax) (hl : (a.length : Int) = imax - imin + 2) (v : ℝ) :
    (∃ (k : ℕ) (x y : ℝ), a[k]? = some x ∧ a[k + 1]? = some y ∧ x ≤ v ∧ v < y ∧
      ifind v a imin imax = .ok (some (imin + k, (v - x) / (y - x)))) ∨
    ((∀ x ∈ a, v < x) ∨ (∀ x ∈ a, x ≤ v)) ∧ ifind v a imin imax = .ok none := by
  obtain ⟨f1, f2⟩ := ifind_ok hs hn hx hl v
  by_cases h : A a imin (imin + 10) ≤ v ∧ v < A a imin (imax + 10 + 1)
  · left
    obtain ⟨i, i1, i2, i3, i4, i5⟩ := f1 h
    have e : ∀ t : ℕ, (t : Int) = i - imin → A a imin (i + 10) = val a t := by
      intro t ht; unfold A; congr 1; omega
    have e' : ∀ t : ℕ, (t : Int) = i - imin → A a imin (i + 10 + 1) = val a (t + 1) := by
      intro t ht; unfold A; congr 1; omega
    have ht : ((i - imin).toNat : Int) = i - imin := by omega
    refine ⟨(i - imin).toNat, val a (i - imin).toNat, val a ((i - imin).toNat + 1),
      getElem?_val (by omega), getElem?_val (by omega), ?_, ?_, ?_⟩
    · rw [← e _ ht]; exact i3
    · rw [← e' _ ht]; exact i4
    · rw [i5, e _ ht, e' _ ht, ht]
      congr 3
      omega
  · right
    have h' : v < A a imin (imin + 10) ∨ A a imin (imax + 10 + 1) ≤ v := by
      by_contra hc
      push Not at hc
      exact h hc
    refine ⟨?_, f2 h'⟩
    rcases h' with h' | h'
    · left
      intro x hx
      obtain ⟨k, hk, rfl⟩ := List.getElem_of_mem hx
      have := A_le hs (imin := imin) (t := imin + 10) (u := imin + 10 + k) le_rfl (by omega)
        (by omega)
      have e : A a imin (imin + 10 + k) = a[k] := by
        unfold A
        rw [show (imin + 10 + (k : Int) - (imin + 10)).toNat = k by omega, val_lt hk]
      linarith
    · right
      intro x hx
      obtain ⟨k, hk, rfl⟩ := List.getElem_of_mem hx
      have := A_le hs (imin := imin) (t := imin + 10 + k) (u := imax + 10 + 1) (by omega) (by omega)
        (by omega)
      have e : A a imin (imin + 10 + k) = a[k] := by
        unfold A
        rw [show (imin + 10 + (k : Int) - (imin + 10)).toNat = k by omega, val_lt hk]
      linarith

/-- A list of bounds. -/
example : ([1, 2, 5, 7] : List ℝ).Pairwise (· < ·) ∧ (([1, 2, 5, 7] : List ℝ).length : Int) = 3 - 1 + 2 := by
  constructor
  · norm_num
  · rfl

/-- C142, in part: for masses from 2 GeV up to but without 10 TeV and channels from 1 to 12, the flux
returned after reading a complete file, whatever was read before, is the one of the file. -/
theorem C142_value_partial (mem0 : Mem) (file : Lines) (hf : Regular file) :
    ∃ mem, load mem0 file = .ok mem ∧ ∀ (f : Fn) (E : ℝ), 0 < E →
      2 ≤ f.mass.eff → f.mass.eff < 10000 → 1 ≤ f.channel0 → f.channel0 ≤ 12 →
      1 ≤ f.channel1 → f.channel1 ≤ 12 →
      ∃ y, value mem f E = .ok y ∧ IsFlux file f E y := by
  obtain ⟨mem, h, H⟩ := load_ok hf mem0
  refine ⟨mem, h, fun f E hE hm hm' a b c d => ?_⟩
  obtain ⟨s0, l0, c0, p0⟩ := chref_ok a b
  obtain ⟨s1, l1, c1, p1⟩ := chref_ok c d
  obtain ⟨y0, d0, g0⟩ := de_ok H l0 c0 hm hm' (show 0 < E / 1000 by positivity)
  obtain ⟨y1, d1, g1⟩ := de_ok H l1 c1 hm hm' (show 0 < E / 1000 by positivity)
  exact ⟨_, value_of d0 d1 (by linarith), s0, s1, y0, y1, p0, p1, g0, g1, rfl⟩

/-- There are complete files, and spectra within the limits. -/
example : Regular (flat 3) ∧ ∃ f : Fn, 2 ≤ f.mass.eff ∧ f.mass.eff < 10000 ∧ 1 ≤ f.channel0 ∧
    f.channel0 ≤ 12 := by
  refine ⟨flat_regular 3, ⟨⟨1, 1⟩, ⟨3, 1⟩, ⟨100, 1⟩, ⟨1, 1⟩, 4, 1⟩, ?_, ?_, ?_, ?_⟩ <;>
    norm_num [Par.eff]

/-- C142: the flux of a spectrum is determined by the file. -/
theorem C142_flux_unique {file : Lines} {f : Fn} {E y z : ℝ} (hy : IsFlux file f E y)
    (hz : IsFlux file f E z) : y = z := by
  obtain ⟨s0, s1, y0, y1, p0, p1, g0, g1, rfl⟩ := hy
  obtain ⟨t0, t1, z0, z1, q0, q1, k0, k1, rfl⟩ := hz
  have key : ∀ (c : Int) (s t : ℕ), placeOf c s → placeOf c t → s = t := by
    rintro c s t ⟨x, -, a1, a2⟩ ⟨x', -, b1, b2⟩
    rw [a1] at b1
    cases b1
    obtain ⟨i1, e1⟩ := List.getElem?_eq_some_iff.1 a2
    obtain ⟨i2, e2⟩ := List.getElem?_eq_some_iff.1 b2
    have hnd : inFile.Nodup := by decide
    exact (List.Nodup.getElem_inj_iff hnd).1 (e1.trans e2.symm)
  have e0 := key _ _ _ p0 q0
  have e1 := key _ _ _ p1 q1
  subst e0; subst e1
  rw [photons_unique g0 k0, photons_unique g1 k1]

/-- Such fluxes exist. -/
example : ∃ y, IsFlux (flat 3) ⟨⟨1, 1⟩, ⟨3, 1⟩, ⟨100, 1⟩, ⟨1, 1⟩, 4, 1⟩ 1000 y := by
  obtain ⟨mem, -, h⟩ := C142_value_partial (fun _ => 0) (flat 3) (flat_regular 3)
  obtain ⟨y, -, hy⟩ := h ⟨⟨1, 1⟩, ⟨3, 1⟩, ⟨100, 1⟩, ⟨1, 1⟩, 4, 1⟩ 1000 (by norm_num)
    (by norm_num [Par.eff]) (by norm_num [Par.eff]) (by norm_num) (by norm_num) (by norm_num)
    (by norm_num)
  exact ⟨y, hy⟩

/-- C142: a file of whole lines but with fewer than 288 of them ends the program. -/
theorem C142_short (mem0 : Mem) {file : Lines} (hf : ∀ r ∈ file, 250 ≤ r.length)
    (hl : file.length < 288) : load mem0 file = .throws := load_short hf hl mem0

/-- There are such files. -/
example : ∀ r ∈ [List.replicate 250 (1 : ℝ)], 250 ≤ r.length := by
  intro r hr
  rw [List.mem_singleton.1 hr, List.length_replicate]

/-- C142: with no negative number in the file and in the parameters, and the share of the first
channel between 0 and 1, the flux is not negative. -/
theorem C142_nonneg {file : Lines} {f : Fn} {E y : ℝ} (hE : 0 < E) (h : ∀ r ∈ file, ∀ x ∈ r, 0 ≤ x)
    (hn : 0 ≤ f.norm.eff) (hs : 0 ≤ f.sigmav.eff) (hb : 0 ≤ f.bratio.eff) (hb' : f.bratio.eff ≤ 1)
    (hy : IsFlux file f E y) : 0 ≤ y := by
  have hnum : ∀ s k i, 0 ≤ number file s k i := by
    intro s k i
    unfold number
    rcases e : file[s * 24 + k]? with - | r
    · simp
    · have hr := List.mem_of_getElem? e
      rw [Option.getD_some]
      rcases e' : r[(max 0 (min 249 i)).toNat]? with - | x
      · simp
      · rw [Option.getD_some]
        exact h r hr x (List.mem_of_getElem? e')
  have hlin : ∀ s k u, 0 ≤ lin (number file s k) u := by
    intro s k u
    unfold lin
    have f1 : 0 ≤ u - ⌊u⌋ := by have := Int.floor_le u; linarith
    have f2 : u - ⌊u⌋ ≤ 1 := by have := Int.lt_floor_add_one u; linarith
    have a := hnum s k ⌊u⌋
    have b := hnum s k (⌊u⌋ + 1)
    have e1 := mul_nonneg a (show 0 ≤ 1 - (u - ⌊u⌋) by linarith)
    have e2 := mul_nonneg b f1
    linarith
  have hph : ∀ s m E y, 0 < E → Photons file s m E y → 0 ≤ y := by
    rintro s m E y hE (⟨-, rfl⟩ | ⟨-, -, k, lo, hi, k1, k2, k3, k4, p, rfl, rfl⟩)
    · exact le_rfl
    · have hlo : 0 < lo := by
        have hm : lo ∈ masses := List.mem_of_getElem? k1
        have hall : ∀ x ∈ masses, (0 : ℝ) < x := by
          unfold masses
          norm_num
        exact hall lo hm
      have q1 : 0 < hi ^ 2 - lo ^ 2 := by nlinarith
      have p0 : 0 ≤ (m ^ 2 - lo ^ 2) / (hi ^ 2 - lo ^ 2) := div_nonneg (by nlinarith) q1.le
      have p1 : (m ^ 2 - lo ^ 2) / (hi ^ 2 - lo ^ 2) ≤ 1 := by
        rw [div_le_one q1]; nlinarith
      have a := mul_nonneg (show 0 ≤ 1 - (m ^ 2 - lo ^ 2) / (hi ^ 2 - lo ^ 2) by linarith)
        (hlin s k (place m E))
      have b := mul_nonneg p0 (hlin s (k + 1) (place m E))
      exact div_nonneg (by linarith) hE.le
  obtain ⟨s0, s1, y0, y1, -, -, g0, g1, rfl⟩ := hy
  have z0 := hph _ _ _ _ (show 0 < E / 1000 by positivity) g0
  have z1 := hph _ _ _ _ (show 0 < E / 1000 by positivity) g1
  unfold flux
  have w0 := mul_nonneg hb z0
  have w1 := mul_nonneg (show 0 ≤ 1 - f.bratio.eff by linarith) z1
  have := Real.pi_pos
  positivity

/-- A file without negative numbers. -/
example : ∀ r ∈ flat 3, ∀ x ∈ r, (0 : ℝ) ≤ x := by
  intro r hr x hx
  rw [List.eq_of_mem_replicate hr] at hx
  rw [List.eq_of_mem_replicate hx]
  norm_num

/-- C142 violated: for every mass below 2 GeV and for 10 TeV, which is in the table, at every energy
below the mass (by less than ten decades), the code reads outside its list of masses, whatever is in
the table. -/
theorem C142_mass_violates (mem : Mem) (f : Fn) {E : ℝ} (hE : 0 < E)
    (hm : f.mass.eff < 2 ∨ f.mass.eff = 10000) (h : E / 1000 < f.mass.eff)
    (h1 : -1 ≤ place f.mass.eff (E / 1000)) : value mem f E = .ub := by
  unfold value
  rw [kev]
  simp only
  rw [de_ub hm (by positivity) h h1]
  rfl

/-- A tenth of a mass of 1 GeV is such an energy. -/
example : -1 ≤ place 1 (100 / 1000) := by
  unfold place
  have : Real.log (100 / 1000 / 1) / Real.log 10 = -1 := by
    rw [show (100 / 1000 / 1 : ℝ) = 10⁻¹ by norm_num, Real.log_inv]
    field_simp [log10_pos.ne']
  rw [this]
  norm_num

/-- C142 violated: a number that is not that of a channel gives the spectrum of channel 3 (tau
leptons), whereas the documented default is channel 4 (bottom quarks). -/
theorem C142_channel_violates (mem : Mem) (f : Fn) (E : ℝ) {c : Int} (hc : c < 1 ∨ 12 < c) :
    value mem { f with channel0 := c } E = value mem { f with channel0 := 3 } E ∧
    placeOf 3 3 ∧ placeOf 4 1 := by
  refine ⟨?_, ⟨.tautau, by omega, rfl, rfl⟩, ⟨.bb, by omega, rfl, rfl⟩⟩
  have : ∀ m x, de mem m c x = de mem m 3 x := by
    intro m x
    unfold de
    rw [chref_other hc]
    rfl
  unfold value
  simp only [this]

/-- Numbers that are not those of channels. -/
example : (0 : Int) < 1 ∧ (12 : Int) < 13 := by decide

/-- C142 violated: two spectra with files of their own do not keep them: after the second has read
its file the first one returns the flux of that file too.  With a file of ones and a file of twos
these fluxes differ. -/
theorem C142_shared_violates (mem0 : Mem) {own other : Lines} (h1 : Regular own)
    (h2 : Regular other) :
    (∃ mem1 mem2, load mem0 own = .ok mem1 ∧ load mem1 other = .ok mem2 ∧
      ∀ (f : Fn) (E : ℝ), 0 < E → 2 ≤ f.mass.eff → f.mass.eff < 10000 → 1 ≤ f.channel0 →
        f.channel0 ≤ 12 → 1 ≤ f.channel1 → f.channel1 ≤ 12 →
        ∃ y, value mem2 f E = .ok y ∧ IsFlux other f E y) ∧
    ∃ f E y1 y2, IsFlux (flat 1) f E y1 ∧ IsFlux (flat 2) f E y2 ∧ y1 ≠ y2 := by
  constructor
  · obtain ⟨m1, e1, -⟩ := load_ok h1 mem0
    obtain ⟨m2, e2, v⟩ := C142_value_partial m1 other h2
    exact ⟨m1, m2, e1, e2, v⟩
  · have hpl : -1 ≤ place 100 (10000 / 1000) := by
      unfold place
      have : Real.log (10000 / 1000 / 100) / Real.log 10 = -1 := by
        rw [show (10000 / 1000 / 100 : ℝ) = 10⁻¹ by norm_num, Real.log_inv]
        field_simp [log10_pos.ne']
      rw [this]
      norm_num
    have key : ∀ c : ℝ, IsFlux (flat c) ⟨⟨1, 1⟩, ⟨1, 1⟩, ⟨100, 1⟩, ⟨1, 1⟩, 4, 4⟩ 10000
        (flux ⟨⟨1, 1⟩, ⟨1, 1⟩, ⟨100, 1⟩, ⟨1, 1⟩, 4, 4⟩ (c / (10000 / 1000)) (c / (10000 / 1000))) := by
      intro c
      obtain ⟨mem, -, H⟩ := load_ok (flat_regular c) mem0
      obtain ⟨s, l, hc, p⟩ := chref_ok (c := 4) (by omega) (by omega)
      obtain ⟨y, -, g⟩ := de_ok H l hc (m := 100) (E := 10000 / 1000) (by norm_num) (by norm_num)
        (by norm_num)
      have := photons_flat l (by norm_num) hpl g
      subst this
      have e : (⟨100, 1⟩ : Par).eff = 100 := by norm_num [Par.eff]
      exact ⟨s, s, _, _, p, p, by rw [show _ = (100 : ℝ) from e]; exact g,
        by rw [show _ = (100 : ℝ) from e]; exact g, rfl⟩
    refine ⟨_, _, _, _, key 1, key 2, ?_⟩
    unfold flux Par.eff
    have := Real.pi_pos
    simp only [mul_one, one_mul, sub_self, zero_mul, add_zero]
    intro hc
    field_simp at hc
    norm_num at hc

/-- Both files may be complete. -/
example : Regular (flat 1) ∧ Regular (flat 2) := ⟨flat_regular 1, flat_regular 2⟩

/-- C142, in part: the derivatives by the norm and by the cross section are those of the flux, and so
is the one by the share of the first channel, provided that its scale is that of the mass. -/
theorem C142_gradient_partial {mem0 mem : Mem} {file : Lines} (H : load mem0 file = .ok mem)
    (hf : Regular file) (f : Fn) {E : ℝ} (hE : 0 < E) (hm : 2 ≤ f.mass.eff)
    (hm' : f.mass.eff < 10000) :
    (∃ g, deriv mem f E .norm = .ok g ∧
      IsGrad (fun u => value mem (withValue f .norm u) E) f.norm.value g) ∧
    (∃ g, deriv mem f E .sigmav = .ok g ∧
      IsGrad (fun u => value mem (withValue f .sigmav u) E) f.sigmav.value g) ∧
    (∃ g g', deriv mem f E .bratio = .ok g ∧
      IsGrad (fun u => value mem (withValue f .bratio u) E) f.bratio.value g' ∧
      g * f.bratio.scale = g' * f.mass.scale ∧ (f.bratio.scale = f.mass.scale → g = g')) := by
  obtain ⟨mem', h, H'⟩ := load_ok hf mem0
  rw [H] at h
  cases h
  obtain ⟨s0, l0, c0⟩ := chref_any f.channel0
  obtain ⟨s1, l1, c1⟩ := chref_any f.channel1
  obtain ⟨y0, d0, -⟩ := de_ok H' l0 c0 hm hm' (show 0 < E / 1000 by positivity)
  obtain ⟨y1, d1, -⟩ := de_ok H' l1 c1 hm hm' (show 0 < E / 1000 by positivity)
  have hm0 : f.mass.eff ≠ 0 := by linarith
  have hpi := Real.pi_ne_zero
  refine ⟨⟨f.norm.scale * f.sigmav.eff / (f.mass.eff * f.mass.eff)
      * (f.bratio.eff * y0 + (1 - f.bratio.eff) * y1) / 1000 / (8 * Real.pi), ?_, ?_⟩,
    ⟨f.norm.eff * f.sigmav.scale / (f.mass.eff * f.mass.eff)
      * (f.bratio.eff * y0 + (1 - f.bratio.eff) * y1) / 1000 / (8 * Real.pi), ?_, ?_⟩,
    ⟨f.mass.scale * f.norm.eff * f.sigmav.eff / (f.mass.eff * f.mass.eff)
      * (y0 - y1) / 1000 / (8 * Real.pi),
    f.bratio.scale * f.norm.eff * f.sigmav.eff / (f.mass.eff * f.mass.eff)
      * (y0 - y1) / 1000 / (8 * Real.pi), ?_, ?_, ?_, ?_⟩⟩
  · unfold deriv
    simp only
    rw [kev, d0, d1]
    rfl
  · refine ⟨fun u => flux (withValue f .norm u) y0 y1,
      Filter.Eventually.of_forall fun u => value_of d0 d1 hm0, ?_⟩
    have hd := (((((hasDerivAt_id f.norm.value).mul_const f.norm.scale).mul_const f.sigmav.eff).div_const
      (8 * Real.pi * f.mass.eff ^ 2)).mul_const
      (f.bratio.eff * y0 + (1 - f.bratio.eff) * y1)).div_const 1000
    refine HasDerivAt.congr_deriv (f := fun u => flux (withValue f .norm u) y0 y1) hd ?_
    field_simp
  · unfold deriv
    simp only
    rw [kev, d0, d1]
    rfl
  · refine ⟨fun u => flux (withValue f .sigmav u) y0 y1,
      Filter.Eventually.of_forall fun u => value_of d0 d1 hm0, ?_⟩
    have hd := (((((hasDerivAt_id f.sigmav.value).mul_const f.sigmav.scale).const_mul f.norm.eff).div_const
      (8 * Real.pi * f.mass.eff ^ 2)).mul_const
      (f.bratio.eff * y0 + (1 - f.bratio.eff) * y1)).div_const 1000
    refine HasDerivAt.congr_deriv (f := fun u => flux (withValue f .sigmav u) y0 y1) hd ?_
    field_simp
  · unfold deriv
    simp only
    rw [kev, d0, d1]
    rfl
  · refine ⟨fun u => flux (withValue f .bratio u) y0 y1,
      Filter.Eventually.of_forall fun u => value_of d0 d1 hm0, ?_⟩
    have hb := (hasDerivAt_id f.bratio.value).mul_const f.bratio.scale
    have hd := (((hb.mul_const y0).add ((hb.const_sub 1).mul_const y1)).const_mul
      (f.norm.eff * f.sigmav.eff / (8 * Real.pi * f.mass.eff ^ 2))).div_const 1000
    refine HasDerivAt.congr_deriv (f := fun u => flux (withValue f .bratio u) y0 y1) hd ?_
    field_simp
    try ring
  · ring
  · intro h
    rw [h]

/-- There are such states. -/
example (mem0 : Mem) : ∃ mem, load mem0 (flat 3) = .ok mem := by
  obtain ⟨mem, h, -⟩ := load_ok (flat_regular 3) mem0
  exact ⟨mem, h⟩

theorem IsGrad.unique {v : ℝ → Res ℝ} {t g h : ℝ} (hg : IsGrad v t g) (hh : IsGrad v t h) :
    g = h := by
  obtain ⟨F, f1, f2⟩ := hg
  obtain ⟨G, g1, g2⟩ := hh
  have e : F =ᶠ[nhds t] G := by
    filter_upwards [f1, g1] with u a b
    rw [a] at b
    exact Res.ok.inj b
  exact (f2.congr_of_eventuallyEq e.symm).unique g2

/-- C142 violated: when the scales of the share of the first channel and of the mass differ, the
derivative returned by that share is not the one of the flux, unless it is zero. -/
theorem C142_share_violates {mem0 mem : Mem} {file : Lines} (H : load mem0 file = .ok mem)
    (hf : Regular file) (f : Fn) {E g : ℝ} (hE : 0 < E) (hm : 2 ≤ f.mass.eff)
    (hm' : f.mass.eff < 10000) (hs : f.bratio.scale ≠ f.mass.scale)
    (hg : deriv mem f E .bratio = .ok g) (hg0 : g ≠ 0) :
    ¬ IsGrad (fun u => value mem (withValue f .bratio u) E) f.bratio.value g := by
  intro hc
  obtain ⟨-, -, g1, g2, d, i, e, -⟩ := C142_gradient_partial H hf f hE hm hm'
  rw [hg] at d
  cases d
  rw [IsGrad.unique i hc] at e
  exact hs (mul_left_cancel₀ hg0 e)

/-- A file in which the channels differ, and a spectrum with different scales and a derivative that
is not zero. -/
example (mem0 : Mem) : ∃ (file : Lines) (mem : Mem) (f : Fn) (g : ℝ), load mem0 file = .ok mem ∧
    Regular file ∧ 2 ≤ f.mass.eff ∧ f.mass.eff < 10000 ∧ f.bratio.scale ≠ f.mass.scale ∧
    deriv mem f 10000 .bratio = .ok g ∧ g ≠ 0 := by
  obtain ⟨file, hfile⟩ : ∃ file, file = List.replicate 24 (List.replicate 250 (1 : ℝ)) ++
    List.replicate 264 (List.replicate 250 (0 : ℝ)) := ⟨_, rfl⟩
  have hreg : Regular file := by
    rw [hfile]
    refine ⟨by rw [List.length_append, List.length_replicate, List.length_replicate], ?_⟩
    intro r hr
    rcases List.mem_append.1 hr with hr | hr <;>
      rw [List.eq_of_mem_replicate hr, List.length_replicate]
  have n0 : ∀ k < 24, ∀ i, number file 0 k i = 1 := by
    intro k hk i
    unfold number
    rw [hfile, List.getElem?_append_left (by rw [List.length_replicate]; omega),
      List.getElem?_replicate_of_lt (by omega), Option.getD_some,
      List.getElem?_replicate_of_lt (by omega), Option.getD_some]
  have n8 : ∀ k < 24, ∀ i, number file 8 k i = 0 := by
    intro k hk i
    unfold number
    rw [hfile, List.getElem?_append_right (by rw [List.length_replicate]; omega),
      List.length_replicate, List.getElem?_replicate_of_lt (by omega), Option.getD_some,
      List.getElem?_replicate_of_lt (by omega), Option.getD_some]
  obtain ⟨mem, hl, H⟩ := load_ok hreg mem0
  have hpl : -1 ≤ place 100 (10000 / 1000) := by
    unfold place
    have : Real.log (10000 / 1000 / 100) / Real.log 10 = -1 := by
      rw [show (10000 / 1000 / 100 : ℝ) = 10⁻¹ by norm_num, Real.log_inv]
      field_simp [log10_pos.ne']
    rw [this]
    norm_num
  obtain ⟨y0, d0, g0⟩ := de_ok H (s := 0) (by omega) (c := 9) rfl (m := 100) (E := 10000 / 1000)
    (by norm_num) (by norm_num) (by norm_num)
  obtain ⟨y1, d1, g1⟩ := de_ok H (s := 8) (by omega) (c := 1) rfl (m := 100) (E := 10000 / 1000)
    (by norm_num) (by norm_num) (by norm_num)
  rw [photons_const n0 (by norm_num) hpl g0] at d0
  rw [photons_const n8 (by norm_num) hpl g1] at d1
  have hm : (⟨100, 1⟩ : Par).eff = 100 := by norm_num [Par.eff]
  refine ⟨file, mem, ⟨⟨1, 1⟩, ⟨1, 1⟩, ⟨100, 1⟩, ⟨1, 2⟩, 9, 1⟩,
    1 * 1 * 1 / (100 * 100) * (1 / (10000 / 1000) - 0 / (10000 / 1000)) / 1000 / (8 * Real.pi), hl, hreg, ?_, ?_, ?_, ?_, ?_⟩
  · norm_num [Par.eff]
  · norm_num [Par.eff]
  · norm_num
  · unfold deriv
    simp only
    rw [kev, hm, d0, d1]
    simp only [Res.bind_ok, Res.pure_eq]
    refine congrArg Res.ok ?_
    norm_num [Par.eff]
  · have := Real.pi_ne_zero
    norm_num

/-- C142, in part: with a file in which nothing depends on the energy and the mass, and masses away
from the limits of the table, the derivative by the mass is the one of the flux, provided that the
scale of the mass is that of the cross section.
Violated: the scale used is that of the cross section. -/
theorem C142_mass_gradient_violates {mem0 mem : Mem} {c : ℝ} (H : load mem0 (flat c) = .ok mem)
    (f : Fn) {E : ℝ} (hE : 0 < E) (hm : 2 * 1.0001 ≤ f.mass.eff)
    (hm' : f.mass.eff * 1.0001 < 10000) (h : E / 1000 < f.mass.eff / 1.0001)
    (h1 : -1 ≤ place (f.mass.eff * 1.0001) (E / 1000)) :
    ∃ g g', deriv mem f E .mass = .ok g ∧
      IsGrad (fun u => value mem (withValue f .mass u) E) f.mass.value g' ∧
      g * f.mass.scale = g' * f.sigmav.scale ∧
      (f.mass.scale = f.sigmav.scale → g = g') ∧
      (f.mass.scale ≠ f.sigmav.scale → c ≠ 0 → f.norm.value ≠ 0 → f.norm.scale ≠ 0 →
        f.sigmav.value ≠ 0 → f.sigmav.scale ≠ 0 → g ≠ g') := by
  obtain ⟨mem', h0, H'⟩ := load_ok (flat_regular c) mem0
  rw [H] at h0
  cases h0
  have hx : 0 < E / 1000 := by positivity
  have m0 : 2 < f.mass.eff := by norm_num at hm ⊢; linarith
  have lt1 : f.mass.eff / 1.0001 < f.mass.eff := by
    rw [div_lt_iff₀ (by norm_num)]; norm_num; linarith
  have lt2 : f.mass.eff < f.mass.eff * 1.0001 := by norm_num; linarith
  have p1 := place_anti hx (by linarith) lt2
  have d := fun ch => de_flat H' ch m0.le (by linarith) hx (by linarith) (show -1 ≤ place f.mass.eff
    (E / 1000) by linarith)
  have q := fun ch => dm_flat H' ch hm hm' hx h h1
  have hgrad := mass_grad H' f hE (lo := f.mass.eff / 1.0001) (hi := f.mass.eff * 1.0001)
    (by rw [le_div_iff₀ (by norm_num)]; exact hm) h hm'.le lt1 lt2 h1
  refine ⟨f.sigmav.scale * (f.norm.eff * f.sigmav.eff / f.mass.eff ^ 2
        * (-2 / f.mass.eff * (c / (E / 1000))) / 1000 / (8 * Real.pi)), _, ?_, hgrad, ?_, ?_, ?_⟩
  · unfold deriv
    simp only
    rw [kev, q, q, d, d]
    simp only [Res.bind_ok, Res.pure_eq]
    refine congrArg Res.ok ?_
    have : f.mass.eff ≠ 0 := by linarith
    have := Real.pi_ne_zero
    field_simp
    ring
  · ring
  · intro e
    rw [e]
  · intro e hc a1 a2 a3 a4 heq
    refine e (mul_right_cancel₀ ?_ heq.symm)
    have : f.mass.eff ≠ 0 := by linarith
    have := Real.pi_ne_zero
    have : f.norm.eff ≠ 0 := mul_ne_zero a1 a2
    have : f.sigmav.eff ≠ 0 := mul_ne_zero a3 a4
    positivity

/-- Such a spectrum, in the usual units of the cross section. -/
example : ∃ f : Fn, 2 * 1.0001 ≤ f.mass.eff ∧ f.mass.eff * 1.0001 < 10000 ∧
    f.mass.scale ≠ f.sigmav.scale ∧ (1000 : ℝ) / 1000 < f.mass.eff / 1.0001 := by
  refine ⟨⟨⟨1, 1⟩, ⟨3, 1e-26⟩, ⟨100, 1⟩, ⟨1, 1⟩, 4, 1⟩, ?_, ?_, ?_, ?_⟩ <;> norm_num [Par.eff]

/-- C142 violated: for masses less than 0.01 percent above 2 GeV, for which there is a flux, the
derivative by the mass reads outside the list of masses. -/
theorem C142_low_gradient_violates {mem0 mem : Mem} {file : Lines} (H : load mem0 file = .ok mem)
    (hf : Regular file) (f : Fn) {E : ℝ} (hE : 0 < E) (hm : 2 ≤ f.mass.eff)
    (hm' : f.mass.eff < 2 * 1.0001) (h : E / 1000 < f.mass.eff / 1.0001)
    (h1 : -1 ≤ place f.mass.eff (E / 1000)) :
    (∃ y, value mem f E = .ok y) ∧ deriv mem f E .mass = .ub := by
  obtain ⟨mem', h0, H'⟩ := load_ok hf mem0
  rw [H] at h0
  cases h0
  obtain ⟨s0, l0, c0⟩ := chref_any f.channel0
  obtain ⟨s1, l1, c1⟩ := chref_any f.channel1
  have hx : 0 < E / 1000 := by positivity
  have hm'' : f.mass.eff < 10000 := by norm_num at hm' ⊢; linarith
  obtain ⟨y0, d0, -⟩ := de_ok H' l0 c0 hm hm'' hx
  obtain ⟨y1, d1, -⟩ := de_ok H' l1 c1 hm hm'' hx
  refine ⟨⟨_, value_of d0 d1 (by linarith)⟩, ?_⟩
  have lt1 : f.mass.eff / 1.0001 < f.mass.eff := by
    rw [div_lt_iff₀ (by norm_num)]; norm_num; linarith
  have p2 := place_anti hx (show 0 < f.mass.eff / 1.0001 by positivity) lt1
  have u := de_ub (mem := mem) (c := f.channel0) (m := f.mass.eff / 1.0001) (E := E / 1000)
    (Or.inl (by rw [div_lt_iff₀ (by norm_num)]; exact hm')) hx h (by linarith)
  unfold deriv
  simp only
  rw [kev]
  have e1 : (1e-4 + 1 : ℝ) = 1.0001 := by norm_num
  have : dm mem f.mass.eff f.channel0 (E / 1000) = .ub := by
    unfold dm
    simp only
    rw [e1, decide_eq_true h]
    simp only [if_true]
    rw [d0, u]
    rfl
  rw [this]
  rfl

/-- Such masses. -/
example : (2 : ℝ) ≤ 2.0001 ∧ (2.0001 : ℝ) < 2 * 1.0001 := by norm_num

/-- C142 violated: for masses less than 0.01 percent below 10 TeV, the derivative by the mass takes
the flux above 10 TeV, which is set to zero: with a file in which nothing depends on the energy and
the mass, and with equal scales, it is 2501 times the derivative of the flux. -/
theorem C142_high_gradient_violates {mem0 mem : Mem} {c : ℝ} (H : load mem0 (flat c) = .ok mem)
    (f : Fn) {E : ℝ} (hE : 0 < E) (hm : 10000 < f.mass.eff * 1.0001) (hm' : f.mass.eff < 10000)
    (h : E / 1000 < f.mass.eff / 1.0001) (h1 : -1 ≤ place 10000 (E / 1000))
    (hs : f.mass.scale = f.sigmav.scale) :
    ∃ g, deriv mem f E .mass = .ok (2501 * g) ∧
      IsGrad (fun u => value mem (withValue f .mass u) E) f.mass.value g := by
  obtain ⟨mem', h0, H'⟩ := load_ok (flat_regular c) mem0
  rw [H] at h0
  cases h0
  have hx : 0 < E / 1000 := by positivity
  have m0 : 9000 < f.mass.eff := by norm_num at hm ⊢; linarith
  have lt1 : f.mass.eff / 1.0001 < f.mass.eff := by
    rw [div_lt_iff₀ (by norm_num)]; norm_num; linarith
  have p1 := place_anti hx (by linarith) hm'
  have d := fun ch => de_flat H' ch (show 2 ≤ f.mass.eff by linarith) (by linarith) hx (by linarith)
    (show -1 ≤ place f.mass.eff (E / 1000) by linarith)
  have q := fun ch => dm_flat_top H' ch hm hm' hx h
    (show -1 ≤ place f.mass.eff (E / 1000) by linarith)
  have hgrad := mass_grad H' f hE (lo := f.mass.eff / 1.0001) (hi := 10000)
    (by rw [le_div_iff₀ (by norm_num)]; norm_num; linarith) h le_rfl lt1 hm' h1
  refine ⟨_, ?_, hgrad⟩
  unfold deriv
  simp only
  rw [kev, q, q, d, d, hs]
  simp only [Res.bind_ok, Res.pure_eq]
  refine congrArg Res.ok ?_
  have : f.mass.eff ≠ 0 := by linarith
  have := Real.pi_ne_zero
  field_simp
  ring

/-- Such masses. -/
example : (10000 : ℝ) < 9999.5 * 1.0001 ∧ (9999.5 : ℝ) < 10000 := by norm_num

end Verif.DmFit
