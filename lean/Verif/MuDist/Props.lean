import Verif.MuDist.Lemmas

/-!
# C147: sampled angles for diffuse responses
-/

set_option linter.unusedSectionVars false
set_option linter.unusedSimpArgs false
set_option linter.unusedVariables false

namespace Verif.MuDist

open Vec Spec

/-- **C147.** The sample is, in increasing order, the cosines of the angles at which the
distribution, interpolated linearly between the points of the grid, reaches the levels `i/(n-1)`,
one for every level below the value at a full turn.  (Partial: at the smallest angle the
distribution must be at most the first level, see `C147_narrow_violates`.) -/
theorem C147_sample_partial {erf : ℝ → ℝ} (he : Monotone erf) {sigma : ℝ} (hs : 0 < sigma) (mu : ℝ)
    {n : ℕ} (hn : 2 ≤ n) (h0 : dist01 erf sigma mu (grid n 0) ≤ 1 / ((n : ℝ) - 1)) :
    ∃ mus ths, createSample erf sigma n mu = .ok mus ∧ mus.Pairwise (· ≤ ·) ∧
      mus.Perm (ths.map Real.cos) ∧
      List.Forall₂ (Quantile n (grid n) (fun k => dist01 erf sigma mu (grid n k)))
        ((levels n).filter (fun xi =>
          @decide (xi < dist01 erf sigma mu (grid n (n - 1))) (Classical.propDecidable _))) ths := by
  have hpos : 0 < (n : ℝ) - 1 := by
    have : (2 : ℝ) ≤ n := by exact_mod_cast hn
    linarith
  obtain ⟨ths, h1, h2⟩ := passes_ok he hs mu hn (levels n) [] (by
    intro xi hxi
    obtain ⟨i, _, rfl⟩ := List.mem_map.1 hxi
    refine le_trans h0 ?_
    have : 0 ≤ 1 / ((n : ℝ) - 1) * i := by positivity
    nlinarith)
  refine ⟨((ths.map Real.cos).reverse ++ []).insertionSort (· ≤ ·), ths, ?_, List.pairwise_insertionSort _ _, ?_, h1⟩
  · unfold createSample
    simp only
    have h2' : passes (angles n) (cdfs erf sigma mu (angles n))
      ((List.range (n - 1)).map (fun i : ℕ => 1 / ((n : ℝ) - 1) * ((i : ℝ) + 1))) []
        = .ok ((ths.map Real.cos).reverse ++ []) := h2
    rw [h2', Res.bind_ok]
  · rw [List.append_nil]
    exact (List.perm_insertionSort _ _).trans (List.reverse_perm _)

/-- **C147 (violation).** If more than the first level lies below the smallest angle (a narrow
distribution), the element before the first is asked for and the sampling throws. -/
theorem C147_narrow_violates {erf : ℝ → ℝ} {sigma : ℝ} (mu : ℝ) {n : ℕ} (hn : 2 ≤ n)
    (h0 : 1 / ((n : ℝ) - 1) < dist01 erf sigma mu (grid n 0)) :
    createSample erf sigma n mu = .throws := by
  have hu : upper (1 / ((n : ℝ) - 1)) (cdfs erf sigma mu (angles n)) = some 0 := by
    have hl := cdfs_length erf sigma mu n
    have hv := val_cdfs erf sigma mu (show 0 < n by omega)
    cases hc : cdfs erf sigma mu (angles n) with
    | nil => rw [hc] at hl; simp at hl; omega
    | cons c cs =>
      rw [hc] at hv
      have : c = F erf sigma mu n 0 := by simpa [val] using hv
      rw [upper, if_pos (by rw [this]; exact h0)]
  obtain ⟨m, rfl⟩ : ∃ m, n = m + 2 := ⟨n - 2, by omega⟩
  unfold createSample
  simp only
  rw [show m + 2 - 1 = m + 1 by omega, List.range_succ_eq_map, List.map_cons]
  rw [passes]
  have hx : 1 / (((m + 2 : ℕ) : ℝ) - 1) * (((0 : ℕ) : ℝ) + 1) = 1 / (((m + 2 : ℕ) : ℝ) - 1) := by norm_num
  rw [hx]
  simp only [pass, hu, Res.bind_throws]

/-- **C147.** Inside the range of energies the index is that of the band of the energy, and such a
band exists. -/
theorem C147_band_partial (c : Cfg) (hne : 2 ≤ c.numEnergies) (h0 : 0 < c.emin) (h1 : c.emin < c.emax)
    (e : ℝ) (he : c.emin < e) (he' : e < c.emax) :
    energyIndex c (c.numEnergies - 1) e < c.numEnergies - 1 ∧
      InBand c.emin c.emax (c.numEnergies - 1) (energyIndex c (c.numEnergies - 1) e) e := by
  have l1 : Real.log c.emin < Real.log e := Real.log_lt_log h0 he
  have l2 : Real.log e < Real.log c.emax := Real.log_lt_log (lt_trans h0 he) he'
  have hc : ((c.numEnergies - 1 : ℕ) : ℝ) = (c.numEnergies : ℝ) - 1 := by
    rw [Nat.cast_sub (by omega)]; norm_num
  have hn : (0 : ℝ) < (c.numEnergies : ℝ) - 1 := by
    have : (2 : ℝ) ≤ c.numEnergies := by exact_mod_cast hne
    linarith
  have hst : 0 < estep c := div_pos (by linarith) hn
  have hidx : energyIndex c (c.numEnergies - 1) e = ⌊(Real.log e - Real.log c.emin) / estep c⌋₊ := by
    unfold energyIndex
    rw [if_neg (not_le.2 l1), if_neg (not_le.2 l2)]
  have hq : 0 ≤ (Real.log e - Real.log c.emin) / estep c := div_nonneg (by linarith) hst.le
  have f1 := Nat.floor_le hq
  have f2 := Nat.lt_floor_add_one ((Real.log e - Real.log c.emin) / estep c)
  rw [le_div_iff₀ hst] at f1
  rw [div_lt_iff₀ hst] at f2
  rw [hidx]
  refine ⟨?_, ?_, ?_⟩
  · rw [Nat.floor_lt hq, hc, div_lt_iff₀ hst]
    unfold estep
    rw [mul_div_cancel₀ _ hn.ne']
    linarith
  · rw [hc]
    have : (Real.log c.emax - Real.log c.emin) / ((c.numEnergies : ℝ) - 1) = estep c := rfl
    rw [this]; linarith
  · rw [hc]
    have : (Real.log c.emax - Real.log c.emin) / ((c.numEnergies : ℝ) - 1) = estep c := rfl
    rw [this]; linarith

/-- **C147.** The points for an energy inside the range are the sample made for the energy in the
middle (of the logarithm) of its band. -/
theorem C147_points_partial (erf : ℝ → ℝ) (c : Cfg) (hne : 2 ≤ c.numEnergies) (h0 : 0 < c.emin)
    (h1 : c.emin < c.emax) (pts : List (List ℝ)) (hpts : new erf c = .ok pts)
    (e : ℝ) (he : c.emin < e) (he' : e < c.emax) :
    ∃ k l, InBand c.emin c.emax (c.numEnergies - 1) k e ∧ muPoints c pts e = .ok l ∧
      createSample erf c.sigma c.numMu ((Real.log c.emin + (Real.log c.emax - Real.log c.emin) /
        (c.numEnergies - 1 : ℕ) * ((k : ℝ) + 1 / 2)) * c.slope + c.intercept) = .ok l := by
  obtain ⟨b1, b2⟩ := C147_band_partial c hne h0 h1 e he he'
  have hlen : pts.length = c.numEnergies - 1 := by
    have := mapM_len _ _ _ hpts
    simpa using this
  have hget : (List.range (c.numEnergies - 1))[energyIndex c (c.numEnergies - 1) e]?
      = some (energyIndex c (c.numEnergies - 1) e) := by
    rw [List.getElem?_range b1]
  obtain ⟨l, g1, g2⟩ := mapM_get _ _ _ hpts _ _ hget
  refine ⟨_, l, b2, ?_, ?_⟩
  · unfold muPoints
    rw [hlen, g1]
  · rw [← g2]
    congr 1
    unfold muValue
    rw [Real.log_exp]
    have hc : ((c.numEnergies - 1 : ℕ) : ℝ) = (c.numEnergies : ℝ) - 1 := by
      rw [Nat.cast_sub (by omega)]; norm_num
    rw [hc]
    unfold estep
    ring

/-- **C147 (violation).** At and below the lowest energy the second band is used instead of the
first. -/
theorem C147_low_energy_violates (erf : ℝ → ℝ) (c : Cfg) (hne : 3 ≤ c.numEnergies) (h0 : 0 < c.emin)
    (pts : List (List ℝ)) (hpts : new erf c = .ok pts) (e : ℝ) (hpos : 0 < e) (he : e ≤ c.emin) :
    ∃ l, muPoints c pts e = .ok l ∧ createSample erf c.sigma c.numMu
        ((Real.log c.emin + (Real.log c.emax - Real.log c.emin) / (c.numEnergies - 1 : ℕ) * (3 / 2)) * c.slope
          + c.intercept) = .ok l := by
  have hget : (List.range (c.numEnergies - 1))[1]? = some 1 := by
    rw [List.getElem?_range (by omega)]
  obtain ⟨l, g1, g2⟩ := mapM_get _ _ _ hpts _ _ hget
  refine ⟨l, ?_, ?_⟩
  · unfold muPoints energyIndex
    rw [if_pos (Real.log_le_log hpos he), g1]
  · rw [← g2]
    congr 1
    unfold muValue
    rw [Real.log_exp]
    have hc : ((c.numEnergies - 1 : ℕ) : ℝ) = (c.numEnergies : ℝ) - 1 := by
      rw [Nat.cast_sub (by omega)]; norm_num
    rw [hc]
    unfold estep
    push_cast
    ring

/-- **C147 (violation).** With a single band that asks for a band which does not exist. -/
theorem C147_single_band_violates (erf : ℝ → ℝ) (c : Cfg) (hne : c.numEnergies = 2)
    (pts : List (List ℝ)) (hpts : new erf c = .ok pts) (e : ℝ) (hpos : 0 < e) (he : e ≤ c.emin) :
    muPoints c pts e = .throws := by
  have hlen : pts.length = 1 := by
    have := mapM_len _ _ _ hpts
    simpa [hne] using this
  unfold muPoints energyIndex
  rw [if_pos (Real.log_le_log hpos he), List.getElem?_eq_none (by omega)]

/-- **C147.** At and above the highest energy the last band is used. -/
theorem C147_high_energy (erf : ℝ → ℝ) (c : Cfg) (hne : 2 ≤ c.numEnergies) (h0 : 0 < c.emin)
    (h1 : c.emin < c.emax) (pts : List (List ℝ)) (hpts : new erf c = .ok pts) (e : ℝ) (he : c.emax ≤ e) :
    ∃ l, muPoints c pts e = .ok l ∧ pts.getLast? = some l := by
  have hlen : pts.length = c.numEnergies - 1 := by
    have := mapM_len _ _ _ hpts
    simpa using this
  have l1 : Real.log c.emin < Real.log e := Real.log_lt_log h0 (lt_of_lt_of_le h1 he)
  have l2 : Real.log c.emax ≤ Real.log e := Real.log_le_log (lt_trans h0 h1) he
  refine ⟨pts[pts.length - 1]'(by omega), ?_, ?_⟩
  · unfold muPoints energyIndex
    rw [if_neg (not_le.2 l1), if_pos l2, List.getElem?_eq_getElem (by omega)]
  · rw [List.getLast?_eq_getElem?, List.getElem?_eq_getElem (by omega)]

/-- **C147.** A source that is negative in a sampled direction in the field of view is refused. -/
theorem C147_negative (v : View) (ps : List ℝ) (mu phi : ℝ) (ms : List ℝ) (hphi : phi ∈ ps)
    (hin : v.inc mu phi < 90) (hneg : v.srcDist mu phi < 0) :
    computeResponse v ps (mu :: ms) = .throws := by
  have hcells : ∀ l : List ℝ, phi ∈ l → l.mapM (cell v mu) = .throws := by
    intro l
    induction l with
    | nil => intro h; cases h
    | cons a l ih =>
      intro h
      rw [List.mapM_cons]
      by_cases ha : v.inc mu a < 90 ∧ v.srcDist mu a < 0
      · have : cell v mu a = .throws := by unfold cell; rw [if_pos ha.1, if_pos ha.2]
        rw [this]; rfl
      · have hne : phi ≠ a := fun h => ha (h ▸ ⟨hin, hneg⟩)
        have hl : phi ∈ l := by
          rcases List.mem_cons.1 h with h | h
          · exact absurd h hne
          · exact h
        have : ∃ x, cell v mu a = .ok x := by
          unfold cell
          by_cases h1 : v.inc mu a < 90
          · rw [if_pos h1, if_neg (fun h2 => ha ⟨h1, h2⟩)]; exact ⟨_, rfl⟩
          · rw [if_neg h1]; exact ⟨_, rfl⟩
        obtain ⟨x, hx⟩ := this
        rw [hx, Res.bind_ok, ih hl]; rfl
  unfold computeResponse
  rw [List.mapM_cons]
  unfold phiIntegral
  rw [hcells ps hphi]
  rfl

/-- **C147.** For a source and a response that are not negative and a sample in increasing order the
response is computed, is not negative, and is the trapezoid sum over the sampled cosines of the
trapezoid sums over the azimuths; directions with an inclination of 90 degrees or more count as
zero. -/
theorem C147_response (v : View) (ps mus : List ℝ) (hp : 2 ≤ ps.length) (hm : 2 ≤ mus.length)
    (hps : ps.Pairwise (· ≤ ·)) (hmus : mus.Pairwise (· ≤ ·))
    (hs : ∀ mu phi, 0 ≤ v.srcDist mu phi) (hr : ∀ mu phi, 0 ≤ v.resp mu phi) :
    ∃ r, computeResponse v ps mus = .ok r ∧ 0 ≤ r ∧
      r = TrapQuad.trapezoid (mus.map (fun mu => (mu, TrapQuad.trapezoid (ps.map (fun phi =>
        (phi, open Classical in if v.inc mu phi < 90 then v.resp mu phi * v.srcDist mu phi else 0)))))) := by
  have hphi : ∀ mu ∈ mus, phiIntegral v ps mu
      = .ok (TrapQuad.trapezoid (ps.map (fun phi => (phi, dens v mu phi)))) :=
    fun mu _ => phiIntegral_ok v ps mu hp (fun phi _ _ => hs mu phi)
  have hnn : ∀ mu, 0 ≤ TrapQuad.trapezoid (ps.map (fun phi => (phi, dens v mu phi))) := by
    intro mu
    refine trap_nonneg _ (by simpa [List.map_map, Function.comp_def] using hps) ?_
    intro p hp
    obtain ⟨phi, _, rfl⟩ := List.mem_map.1 hp
    show 0 ≤ dens v mu phi
    unfold dens
    split
    · exact mul_nonneg (hr _ _) (hs _ _)
    · exact le_refl _
  have htot : 0 ≤ TrapQuad.trapezoid (mus.map (fun mu =>
      (mu, TrapQuad.trapezoid (ps.map (fun phi => (phi, dens v mu phi)))))) := by
    refine trap_nonneg _ (by simpa [List.map_map, Function.comp_def] using hmus) ?_
    intro p hp
    obtain ⟨mu, _, rfl⟩ := List.mem_map.1 hp
    exact hnn mu
  refine ⟨_, ?_, htot, rfl⟩
  unfold computeResponse
  rw [mapM_ok _ _ mus hphi, Res.bind_ok, compute_trap _ _ (by simp) (by simpa using hm), Res.bind_ok,
    zip_map_self]
  rw [@decide_eq_false _ (Classical.propDecidable _) (not_lt.2 htot)]
  rfl

theorem phis_form (m : ℕ) : ∃ l, phis (m + 2) = 0 :: (l ++ [2 * Real.pi]) := by
  refine ⟨(List.range m).map (fun i : ℕ => 2 * Real.pi / (((m + 2 : ℕ) : ℝ) - 1) * ((i + 1 : ℕ) : ℝ)), ?_⟩
  unfold phis
  rw [List.range_succ_eq_map, List.map_cons, List.range_succ, List.map_append, List.map_append]
  have hm : ((m + 2 : ℕ) : ℝ) - 1 ≠ 0 := by
    push_cast
    have : (0 : ℝ) ≤ m := Nat.cast_nonneg m
    intro h; linarith
  refine congrArg₂ _ (by simp) (congrArg₂ _ ?_ ?_)
  · rw [List.map_map]; rfl
  · simp only [List.map_cons, List.map_nil, List.cons.injEq, and_true]
    have : ((m.succ : ℕ) : ℝ) = ((m + 2 : ℕ) : ℝ) - 1 := by push_cast; ring
    rw [this, div_mul_cancel₀ _ hm]

/-- **C147 (violation).** The sample never reaches the direction of the event itself: with a response
of one everywhere the response to a source of brightness one is below the solid angle `4π` of the
sky, for every sample the program makes with at least two points.  What lies nearer to the event than
the smallest sampled angle, or farther than the largest, is left out. -/
theorem C147_cover_violates {erf : ℝ → ℝ} (he : Monotone erf) {sigma : ℝ} (hs : 0 < sigma) (mu : ℝ)
    {n : ℕ} (hn : 2 ≤ n) (h0 : dist01 erf sigma mu (grid n 0) ≤ 1 / ((n : ℝ) - 1)) (nphi : ℕ)
    (hphi : 2 ≤ nphi) (mus : List ℝ) (hmus : createSample erf sigma n mu = .ok mus)
    (h2 : 2 ≤ mus.length) :
    ∃ r, computeResponse ⟨fun _ _ => 0, fun _ _ => 1, fun _ _ => 1⟩ (phis nphi) mus = .ok r ∧
      r < 4 * Real.pi := by
  obtain ⟨mus', ths, g1, g2, g3, g4⟩ := C147_sample_partial he hs mu hn h0
  obtain rfl : mus' = mus := Res.ok.inj (g1.symm.trans hmus)
  have hlt : ∀ m ∈ mus', m < 1 ∧ -1 ≤ m := by
    intro m hm
    obtain ⟨th, ht, rfl⟩ := List.mem_map.1 (g3.mem_iff.1 hm)
    obtain ⟨i, hi⟩ := List.getElem_of_mem ht
    have hl := g4.length_eq
    have := (List.forall₂_iff_get.1 g4).2 i (by rw [hl]; exact hi.1) hi.1
    simp only [List.get_eq_getElem] at this
    rw [hi.2] at this
    exact ⟨quantile_cos_lt hn this, Real.neg_one_le_cos th⟩
  obtain ⟨m, rfl⟩ : ∃ m, nphi = m + 2 := ⟨nphi - 2, by omega⟩
  obtain ⟨pl, hpl⟩ := phis_form m
  have hplen : 2 ≤ (phis (m + 2)).length := by simp [phis]
  have hform : ∃ a l b, mus' = a :: (l ++ [b]) := by
    cases mus' with
    | nil => simp at h2
    | cons a t =>
      have ht : t ≠ [] := by intro h; subst h; simp at h2
      exact ⟨a, t.dropLast, t.getLast ht, by rw [List.dropLast_append_getLast]⟩
  obtain ⟨a, l, b, hab⟩ := hform
  set v : View := ⟨fun _ _ => 0, fun _ _ => 1, fun _ _ => 1⟩ with hv
  have hd : ∀ x phi, dens v x phi = 1 := by
    intro x phi
    unfold dens
    rw [if_pos (show v.inc x phi < 90 by show (0 : ℝ) < 90; norm_num)]
    show (1 : ℝ) * 1 = 1
    norm_num
  have hphiI : ∀ x ∈ mus', phiIntegral v (phis (m + 2)) x = .ok (2 * Real.pi) := by
    intro x _
    rw [phiIntegral_ok v _ x hplen (fun phi _ _ => by show (0 : ℝ) ≤ 1; norm_num)]
    refine congrArg Res.ok ?_
    simp only [hd]
    rw [hpl, trap_const]
    ring
  have hval : TrapQuad.trapezoid (mus'.map (fun x => (x, 2 * Real.pi))) = 2 * Real.pi * (b - a) := by
    rw [hab, trap_const]
  have ha := hlt a (by rw [hab]; simp)
  have hb := hlt b (by rw [hab]; simp)
  have hle : a ≤ b := by
    rw [hab, List.pairwise_cons] at g2
    exact g2.1 b (by simp)
  have hpi := Real.pi_pos
  refine ⟨2 * Real.pi * (b - a), ?_, by nlinarith⟩
  unfold computeResponse
  rw [mapM_ok _ (fun _ => 2 * Real.pi) mus' hphiI, Res.bind_ok,
    compute_trap _ _ (by simp) (by simpa using h2), Res.bind_ok, zip_map_self, hval]
  have : 0 ≤ 2 * Real.pi * (b - a) := mul_nonneg (by linarith) (by linarith)
  rw [@decide_eq_false _ (Classical.propDecidable _) (not_lt.2 this)]
  rfl

/-- **C147 (violation).** A sample with fewer than two points, as any made with two points of the
grid, makes the quadrature read before the beginning. -/
theorem C147_few_violates (v : View) (ps mus : List ℝ) (hp : 2 ≤ ps.length) (hm : mus.length < 2)
    (hs : ∀ mu phi, 0 ≤ v.srcDist mu phi) : computeResponse v ps mus = .ub := by
  unfold computeResponse
  rw [mapM_ok _ _ mus (fun mu _ => phiIntegral_ok v ps mu hp (fun phi _ _ => hs mu phi)), Res.bind_ok]
  unfold TrapQuad.computeIntegral
  simp only [List.length_map]
  rw [if_pos hm]
  rfl

/-! ### The hypotheses are met -/

/-- A step. -/
noncomputable def stepErf (x : ℝ) : ℝ := open Classical in if x < 0 then -1 else 1

theorem stepErf_mono : Monotone stepErf := by
  intro a b h
  unfold stepErf
  by_cases hb : b < 0
  · rw [if_pos hb, if_pos (lt_of_le_of_lt h hb)]
  · rw [if_neg hb]
    split <;> norm_num

theorem stepErf_first (n : ℕ) (hn : 2 ≤ n) : dist01 stepErf 1 0 (grid n 0) = 0 := by
  have h : (Real.log (grid n 0) - 0) / 1 / Real.sqrt 2 < 0 := by
    have h1 : Real.log (grid n 0) < 0 := by
      have : grid n 0 = 1 / 10000 := by simp [grid]
      rw [this]
      exact Real.log_neg (by norm_num) (by norm_num)
    have h2 : 0 < Real.sqrt 2 := Real.sqrt_pos.2 (by norm_num)
    rw [sub_zero, div_one]
    exact div_neg_of_neg_of_pos h1 h2
  unfold dist01 stepErf
  rw [if_pos h]; norm_num

/-- A sample of a hundred points. -/
example : ∃ mus : List ℝ, ∃ ths : List ℝ, createSample stepErf 1 100 0 = .ok mus ∧ mus.Pairwise (· ≤ ·) ∧
    mus.Perm (ths.map Real.cos) := by
  obtain ⟨mus, ths, h1, h2, h3, _⟩ := C147_sample_partial stepErf_mono (sigma := 1) (by norm_num) 0
    (n := 100) (by norm_num) (by rw [stepErf_first _ (by norm_num)]; norm_num)
  exact ⟨mus, ths, h1, h2, h3⟩

/-- A distribution below the smallest angle. -/
example : createSample (fun _ => 1) 1 100 0 = .throws :=
  C147_narrow_violates 0 (by norm_num) (by unfold dist01; norm_num)

/-- Two bands between 1 and 4. -/
noncomputable def exCfg : Cfg := ⟨0, 0, 1, 1, 4, 3, 100⟩

example : energyIndex exCfg 2 2 < 2 ∧ InBand 1 4 2 (energyIndex exCfg 2 2) 2 :=
  C147_band_partial exCfg (by show 2 ≤ 3; norm_num) (by show (0 : ℝ) < 1; norm_num)
    (by show (1 : ℝ) < 4; norm_num) 2 (by show (1 : ℝ) < 2; norm_num) (by show (2 : ℝ) < 4; norm_num)

theorem exNew : ∃ pts, new stepErf exCfg = .ok pts := by
  obtain ⟨mus, ths, h1, _⟩ := C147_sample_partial stepErf_mono (sigma := 1) (by norm_num) 0
    (n := 100) (by norm_num) (by rw [stepErf_first _ (by norm_num)]; norm_num)
  refine ⟨_, mapM_ok _ (fun _ => mus) _ ?_⟩
  intro k _
  have : muValue exCfg (Real.exp (estep exCfg * ((k : ℝ) + 1 / 2) + Real.log exCfg.emin)) = 0 := by
    simp [muValue, exCfg]
  simp only [this]
  exact h1

example : ∃ pts l, new stepErf exCfg = .ok pts ∧ muPoints exCfg pts 2 = .ok l := by
  obtain ⟨pts, h⟩ := exNew
  obtain ⟨k, l, _, h2, _⟩ := C147_points_partial stepErf exCfg (by show 2 ≤ 3; norm_num)
    (by show (0 : ℝ) < 1; norm_num) (by show (1 : ℝ) < 4; norm_num) pts h 2
    (by show (1 : ℝ) < 2; norm_num) (by show (2 : ℝ) < 4; norm_num)
  exact ⟨pts, l, h, h2⟩

example : ∃ pts l, new stepErf exCfg = .ok pts ∧ muPoints exCfg pts (1 / 2) = .ok l := by
  obtain ⟨pts, h⟩ := exNew
  obtain ⟨l, h2, _⟩ := C147_low_energy_violates stepErf exCfg (by show 3 ≤ 3; norm_num)
    (by show (0 : ℝ) < 1; norm_num) pts h (1 / 2) (by norm_num) (by show (1 / 2 : ℝ) ≤ 1; norm_num)
  exact ⟨pts, l, h, h2⟩

example : ∃ pts l, new stepErf exCfg = .ok pts ∧ muPoints exCfg pts 5 = .ok l := by
  obtain ⟨pts, h⟩ := exNew
  obtain ⟨l, h2, _⟩ := C147_high_energy stepErf exCfg (by show 2 ≤ 3; norm_num)
    (by show (0 : ℝ) < 1; norm_num) (by show (1 : ℝ) < 4; norm_num) pts h 5 (by show (4 : ℝ) ≤ 5; norm_num)
  exact ⟨pts, l, h, h2⟩

example : computeResponse ⟨fun _ _ => 0, fun _ _ => 1, fun _ phi => 1 - phi⟩ [0, 1, 2] [0, 1] = .throws :=
  C147_negative _ _ 0 2 _ (by norm_num) (by norm_num) (by norm_num)

/-- One azimuth grid and three cosines. -/
example : ∃ r, computeResponse ⟨fun _ _ => 0, fun _ _ => 1, fun _ _ => 1⟩ [0, 1, 2] [-1, 0, 1] = .ok r ∧ 0 ≤ r := by
  obtain ⟨r, h1, h2, _⟩ := C147_response ⟨fun _ _ => 0, fun _ _ => 1, fun _ _ => 1⟩ [0, 1, 2] [-1, 0, 1]
    (by norm_num) (by norm_num) (by norm_num) (by norm_num) (by norm_num) (by norm_num)
  exact ⟨r, h1, h2⟩

example : computeResponse ⟨fun _ _ => 0, fun _ _ => 1, fun _ _ => 1⟩ [0, 1, 2] [0] = .ub :=
  C147_few_violates _ _ _ (by norm_num) (by norm_num) (by norm_num)

/-- Fifty azimuths and a sample of four levels, of which the first three are reached. -/
example : ∃ mus r, createSample stepErf 1 5 0 = .ok mus ∧
    computeResponse ⟨fun _ _ => 0, fun _ _ => 1, fun _ _ => 1⟩ (phis 50) mus = .ok r ∧ r < 4 * Real.pi := by
  have h0 : dist01 stepErf 1 0 (grid 5 0) ≤ 1 / (((5 : ℕ) : ℝ) - 1) := by
    rw [stepErf_first _ (by norm_num)]; norm_num
  have hF : dist01 stepErf 1 0 (grid 5 (5 - 1)) = 1 := by
    rw [grid_last (by norm_num)]
    have hp := Real.pi_gt_three
    have h : ¬ (Real.log (2 * Real.pi) - 0) / 1 / Real.sqrt 2 < 0 := by
      rw [not_lt]
      exact div_nonneg (div_nonneg (by rw [sub_zero]; exact Real.log_nonneg (by linarith)) (by norm_num))
        (Real.sqrt_nonneg _)
    unfold dist01 stepErf
    rw [if_neg h]; norm_num
  obtain ⟨mus, ths, h1, _, h3, h4⟩ := C147_sample_partial stepErf_mono (sigma := 1) (by norm_num) 0
    (n := 5) (by norm_num) h0
  have hlen : 2 ≤ mus.length := by
    rw [h3.length_eq, List.length_map, ← h4.length_eq, hF]
    have hlev : levels 5 = [1 / 4, 2 / 4, 3 / 4, 1] := by
      simp only [levels, List.range_succ_eq_map, List.range_zero, List.map_cons, List.map_nil]
      norm_num
    rw [hlev]
    have d1 : @decide ((1 / 4 : ℝ) < 1) (Classical.propDecidable _) = true :=
      @decide_eq_true _ (Classical.propDecidable _) (by norm_num)
    have d2 : @decide ((2 / 4 : ℝ) < 1) (Classical.propDecidable _) = true :=
      @decide_eq_true _ (Classical.propDecidable _) (by norm_num)
    rw [List.filter_cons, d1, if_pos rfl, List.filter_cons, d2, if_pos rfl]
    simp only [List.length_cons]
    omega
  obtain ⟨r, g1, g2⟩ := C147_cover_violates stepErf_mono (by norm_num) 0 (by norm_num) h0 50 (by norm_num)
    mus h1 hlen
  exact ⟨mus, r, h1, g1, g2⟩

end Verif.MuDist
