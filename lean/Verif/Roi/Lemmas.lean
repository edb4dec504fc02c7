import Mathlib.Tactic.Ring
import Mathlib.Tactic.Linarith
import Mathlib.Tactic.FieldSimp
import Mathlib.Tactic.Positivity
import Mathlib.Tactic.NormNum
import Verif.Roi.Spec

set_option linter.unusedSimpArgs false
set_option linter.unusedVariables false

/-! # Lemmas on event selection -/

namespace Verif.Roi

theorem gtiLoop_eq (t : ℝ) (gs : List Gti) (b : Bool) :
    gtiLoop t gs b = (b || gs.any (fun g => g.accepts t)) := by
  induction gs generalizing b with
  | nil => simp [gtiLoop]
  | cons g gs ih => rw [gtiLoop, ih, List.any_cons, Bool.or_assoc]

theorem timeRangeLoop_last (t : ℝ) (rs : List Range) (r : Range) (b : Bool) :
    timeRangeLoop t (rs ++ [r]) b = r.accepts t := by
  induction rs generalizing b with
  | nil => rfl
  | cons x xs ih => exact ih _

/-- Exactly what the code does with an event. -/
theorem accept_iff (r : RoiCuts) (e : Event) :
    accept r e = true ↔
      timeRangeLoop e.time r.timeRanges
        (decide (r.gtis = [] ∨ ∃ g ∈ r.gtis, g.accepts e.time = true)) = true ∧
      (r.eMin ≤ e.energy ∧ e.energy ≤ r.eMax) ∧
      e.sep r.cone.ra r.cone.dec ≤ r.cone.radius ∧ r.muZenMax ≤ e.muZenith := by
  have hg : (if r.gtis.length = 0 then true else gtiLoop e.time r.gtis false)
      = decide (r.gtis = [] ∨ ∃ g ∈ r.gtis, g.accepts e.time = true) := by
    rw [gtiLoop_eq]
    rcases h : r.gtis with _ | ⟨g, gs⟩
    · simp
    · rw [Bool.eq_iff_iff]
      simp
  unfold accept
  simp only [hg]
  generalize timeRangeLoop e.time r.timeRanges _ = b
  by_cases h1 : e.energy < r.eMin
  · simp [h1]
  by_cases h2 : r.eMax < e.energy
  · simp [h2]
  by_cases h3 : r.cone.radius < e.sep r.cone.ra r.cone.dec
  · simp [h3]
  by_cases h4 : e.muZenith < r.muZenMax
  · simp [h4]
  simp [h1, h2, h3, h4, not_lt.mp h1, not_lt.mp h2, not_lt.mp h3, not_lt.mp h4]

/-- The values of the grid: in exact arithmetic the last entry is already the upper bound. -/
theorem makeEnergyVector_ok {a b : ℝ} {n : Nat} (ha : 0 < a) (hb : 0 < b) (hn : 2 ≤ n) :
    makeEnergyVector a b n = .ok ((List.range n).map
      (fun (i : Nat) => a * Real.exp (Real.log (b / a) / ((n : ℝ) - 1) * (i : ℝ)))) := by
  have hn1 : ((n : ℝ) - 1) ≠ 0 := by
    have : (2 : ℝ) ≤ n := by exact_mod_cast hn
    linarith
  unfold makeEnergyVector
  rw [if_neg (not_le.mpr ha)]
  simp only [List.length_map, List.length_range]
  rw [if_neg (by omega), vset_lt _ _ _ (by simp; omega)]
  congr 1
  apply List.ext_getElem
  · simp
  intro i h1 h2
  rw [List.getElem_set]
  split
  · rename_i h
    subst h
    rw [List.getElem_map, List.getElem_range]
    have hc : (((n - 1 : Nat) : ℕ) : ℝ) = (n : ℝ) - 1 := by
      rw [Nat.cast_sub (by omega)]; simp
    rw [hc, div_mul_cancel₀ _ hn1, Real.exp_log (div_pos hb ha)]
    field_simp
  · rfl

theorem makeEnergyVector_pos {a b : ℝ} {n : Nat} {v : List ℝ}
    (h : makeEnergyVector a b n = .ok v) : 0 < a := by
  by_contra hn
  unfold makeEnergyVector at h
  rw [if_pos (not_lt.mp hn)] at h
  cases h

/-- What `sortCuts` collects, whatever the order of the cuts. -/
theorem sortLoop_ok (sup : Range → Range → Bool) {cs : List Cut} {r r' : RoiCuts} {n n' : Counts}
    (h : sortLoop sup cs r n = .ok (r', n')) :
    r'.timeRanges = r.timeRanges ++ Spec.timeRanges cs ∧ r'.gtis = r.gtis ++ Spec.gtis cs ∧
    r'.skyCone = ((Spec.cones cs).getLast? <|> r.skyCone) ∧ r'.cuts = r.cuts ∧
    n'.ncone = n.ncone + (Spec.cones cs).length ∧
    n'.ntime = n.ntime + (Spec.timeRanges cs).length + (Spec.gtis cs).length := by
  induction cs generalizing r n with
  | nil =>
    simp only [sortLoop, Res.ok.injEq, Prod.mk.injEq] at h
    obtain ⟨rfl, rfl⟩ := h
    simp [Spec.timeRanges, Spec.gtis, Spec.cones]
  | cons c cs ih =>
    rw [sortLoop] at h
    obtain ⟨p, hp, h⟩ := Res.bind_eq_ok.mp h
    obtain ⟨i1, i2, i3, i4, i5, i6⟩ := ih h
    cases c with
    | range rc =>
      by_cases he : rc.col = "ENERGY"
      · have hne : ¬ rc.col = "TIME" := by rw [he]; decide
        have hk : p.1.timeRanges = r.timeRanges ∧ p.1.gtis = r.gtis ∧ p.1.skyCone = r.skyCone ∧
            p.1.cuts = r.cuts ∧ p.2.ncone = n.ncone ∧ p.2.ntime = n.ntime := by
          rw [sortStep, if_pos he] at hp
          have hq : (pickEnergy sup r n rc).1.timeRanges = r.timeRanges ∧
              (pickEnergy sup r n rc).1.gtis = r.gtis ∧
              (pickEnergy sup r n rc).1.skyCone = r.skyCone ∧
              (pickEnergy sup r n rc).1.cuts = r.cuts ∧
              (pickEnergy sup r n rc).2.ncone = n.ncone ∧
              (pickEnergy sup r n rc).2.ntime = n.ntime := by
            unfold pickEnergy
            split <;> exact ⟨rfl, rfl, rfl, rfl, rfl, rfl⟩
          simp only at hp
          split at hp
          · split at hp
            · simp only [Res.ok.injEq] at hp
              subst hp
              exact hq
            · cases hp
          · cases hp
        obtain ⟨k1, k2, k3, k4, k5, k6⟩ := hk
        have e1 : Spec.timeRanges (.range rc :: cs) = Spec.timeRanges cs := by
          simp [Spec.timeRanges, hne]
        have e2 : Spec.gtis (.range rc :: cs) = Spec.gtis cs := by simp [Spec.gtis]
        have e3 : Spec.cones (.range rc :: cs) = Spec.cones cs := by simp [Spec.cones]
        rw [e1, e2, e3, i1, i2, i3, i4, i5, i6, k1, k2, k3, k4, k5, k6]
        exact ⟨rfl, rfl, rfl, rfl, rfl, rfl⟩
      · by_cases ht : rc.col = "TIME"
        · rw [sortStep, if_neg he, if_pos ht] at hp
          simp only [Res.ok.injEq] at hp
          subst hp
          have e1 : Spec.timeRanges (.range rc :: cs) = rc :: Spec.timeRanges cs := by
            simp [Spec.timeRanges, ht]
          have e2 : Spec.gtis (.range rc :: cs) = Spec.gtis cs := by simp [Spec.gtis]
          have e3 : Spec.cones (.range rc :: cs) = Spec.cones cs := by simp [Spec.cones]
          rw [e1, e2, e3, i1, i2, i3, i4, i5, i6]
          refine ⟨by simp, by simp, by simp, by simp, by simp, ?_⟩
          simp only [List.length_cons]; omega
        · rw [sortStep, if_neg he, if_neg ht] at hp
          simp only [Res.ok.injEq] at hp
          subst hp
          have e1 : Spec.timeRanges (.range rc :: cs) = Spec.timeRanges cs := by
            simp [Spec.timeRanges, ht]
          have e2 : Spec.gtis (.range rc :: cs) = Spec.gtis cs := by simp [Spec.gtis]
          have e3 : Spec.cones (.range rc :: cs) = Spec.cones cs := by simp [Spec.cones]
          rw [e1, e2, e3]
          exact ⟨i1, i2, i3, i4, i5, i6⟩
    | cone c =>
      rw [sortStep] at hp
      simp only [Res.ok.injEq] at hp
      subst hp
      have e1 : Spec.timeRanges (.cone c :: cs) = Spec.timeRanges cs := by simp [Spec.timeRanges]
      have e2 : Spec.gtis (.cone c :: cs) = Spec.gtis cs := by simp [Spec.gtis]
      have e3 : Spec.cones (.cone c :: cs) = c :: Spec.cones cs := by simp [Spec.cones]
      rw [e1, e2, e3, i1, i2, i3, i4, i5, i6]
      refine ⟨rfl, rfl, ?_, rfl, ?_, rfl⟩
      · rw [List.getLast?_cons]
        cases (Spec.cones cs).getLast? <;> rfl
      · simp only [List.length_cons]; omega
    | gti g =>
      rw [sortStep] at hp
      simp only [Res.ok.injEq] at hp
      subst hp
      have e1 : Spec.timeRanges (.gti g :: cs) = Spec.timeRanges cs := by simp [Spec.timeRanges]
      have e2 : Spec.gtis (.gti g :: cs) = g :: Spec.gtis cs := by simp [Spec.gtis]
      have e3 : Spec.cones (.gti g :: cs) = Spec.cones cs := by simp [Spec.cones]
      rw [e1, e2, e3, i1, i2, i3, i4, i5, i6]
      refine ⟨by simp, by simp, by simp, by simp, by simp, ?_⟩
      simp only [List.length_cons]; omega
    | other =>
      rw [sortStep] at hp
      simp only [Res.ok.injEq] at hp
      subst hp
      have e1 : Spec.timeRanges (.other :: cs) = Spec.timeRanges cs := by simp [Spec.timeRanges]
      have e2 : Spec.gtis (.other :: cs) = Spec.gtis cs := by simp [Spec.gtis]
      have e3 : Spec.cones (.other :: cs) = Spec.cones cs := by simp [Spec.cones]
      rw [e1, e2, e3]
      exact ⟨i1, i2, i3, i4, i5, i6⟩

/-- Without energy ranges the loop goes through and leaves the energy cut alone. -/
theorem sortLoop_none (sup : Range → Range → Bool) {cs : List Cut} (r : RoiCuts) (n : Counts)
    (h : Spec.energyRanges cs = []) :
    ∃ r' n', sortLoop sup cs r n = .ok (r', n') ∧ r'.energyCut = r.energyCut ∧
      n'.nenergy = n.nenergy := by
  induction cs generalizing r n with
  | nil => exact ⟨r, n, rfl, rfl, rfl⟩
  | cons c cs ih =>
    cases c with
    | range rc =>
      by_cases he : rc.col = "ENERGY"
      · simp [Spec.energyRanges, he] at h
      · have h' : Spec.energyRanges cs = [] := by simpa [Spec.energyRanges, he] using h
        by_cases ht : rc.col = "TIME"
        · simp only [sortLoop, sortStep, he, ht, ↓reduceIte, Res.bind_ok, String.reduceEq]
          exact ih _ _ h'
        · simp only [sortLoop, sortStep, he, ht, ↓reduceIte, Res.bind_ok]
          exact ih _ _ h'
    | cone c => exact ih _ _ (by simpa [Spec.energyRanges] using h)
    | gti c => exact ih _ _ (by simpa [Spec.energyRanges] using h)
    | other => exact ih _ _ (by simpa [Spec.energyRanges] using h)

/-- With exactly one energy range, closed, it becomes the energy cut. -/
theorem sortLoop_one (sup : Range → Range → Bool) {cs : List Cut} {e : Range} (r : RoiCuts)
    (n : Counts) (h : Spec.energyRanges cs = [e]) (hc : e.closed = true) (hn : n.nenergy = 0) :
    ∃ r' n', sortLoop sup cs r n = .ok (r', n') ∧ r'.energyCut = some e ∧ n'.nenergy = 1 := by
  induction cs generalizing r n with
  | nil => simp [Spec.energyRanges] at h
  | cons c cs ih =>
    cases c with
    | range rc =>
      by_cases he : rc.col = "ENERGY"
      · have h' : rc = e ∧ Spec.energyRanges cs = [] := by
          simpa [Spec.energyRanges, he] using h
        obtain ⟨rfl, h'⟩ := h'
        obtain ⟨r', n', h1, h2, h3⟩ := sortLoop_none sup (cs := cs)
          { r with energyCut := some rc } { n with nenergy := n.nenergy + 1 } h'
        refine ⟨r', n', ?_, h2, by rw [h3]; simp [hn]⟩
        rw [sortLoop, sortStep, if_pos he]
        simp only [pickEnergy, hn, true_or, ↓reduceIte, hc, Res.bind_ok]
        simpa [hn] using h1
      · have h' : Spec.energyRanges cs = [e] := by simpa [Spec.energyRanges, he] using h
        by_cases ht : rc.col = "TIME"
        · simp only [sortLoop, sortStep, he, ht, ↓reduceIte, Res.bind_ok, String.reduceEq]
          exact ih _ _ h' hn
        · simp only [sortLoop, sortStep, he, ht, ↓reduceIte, Res.bind_ok]
          exact ih _ _ h' hn
    | cone c => exact ih _ _ (by simpa [Spec.energyRanges] using h) hn
    | gti c => exact ih _ _ (by simpa [Spec.energyRanges] using h) hn
    | other => exact ih _ _ (by simpa [Spec.energyRanges] using h) hn

theorem gtiCuts_eq (cs : List Cut) : gtiCuts cs = Spec.gtis cs := by
  induction cs with
  | nil => rfl
  | cons c cs ih => cases c <;> simp [gtiCuts, ih, Spec.gtis]

theorem timeLoop_spec (gs : List Gti) (a b : ℝ) :
    ((timeLoop gs a b).1 ≤ a ∧ ∀ g ∈ gs, (timeLoop gs a b).1 ≤ g.minValue) ∧
    ((timeLoop gs a b).1 = a ∨ ∃ g ∈ gs, (timeLoop gs a b).1 = g.minValue) ∧
    ((timeLoop gs a b).2 ≤ b ∧ ∀ g ∈ gs, (timeLoop gs a b).2 ≤ g.maxValue) := by
  induction gs generalizing a b with
  | nil => simp [timeLoop]
  | cons g gs ih =>
    obtain ⟨⟨h1, h2⟩, h3, ⟨h4, h5⟩⟩ := ih (if g.minValue < a then g.minValue else a)
      (if g.maxValue < b then g.maxValue else b)
    rw [timeLoop]
    have m1 : (if g.minValue < a then g.minValue else a) ≤ a ∧
        (if g.minValue < a then g.minValue else a) ≤ g.minValue := by
      split <;> constructor <;> linarith
    have m2 : (if g.maxValue < b then g.maxValue else b) ≤ b ∧
        (if g.maxValue < b then g.maxValue else b) ≤ g.maxValue := by
      split <;> constructor <;> linarith
    refine ⟨⟨h1.trans m1.1, ?_⟩, ?_, ⟨h4.trans m2.1, ?_⟩⟩
    · intro x hx
      rcases List.mem_cons.mp hx with rfl | hx
      · exact h1.trans m1.2
      · exact h2 x hx
    · rcases h3 with h | ⟨x, hx, h⟩
      · by_cases hc : g.minValue < a
        · rw [if_pos hc] at h
          exact Or.inr ⟨g, List.mem_cons_self, by rw [if_pos hc]; exact h⟩
        · rw [if_neg hc] at h
          exact Or.inl (by rw [if_neg hc]; exact h)
      · exact Or.inr ⟨x, List.mem_cons_of_mem _ hx, h⟩
    · intro x hx
      rcases List.mem_cons.mp hx with rfl | hx
      · exact h4.trans m2.2
      · exact h5 x hx

/-- What reading the cuts of a file leaves in the object. -/
theorem readCuts_ok (sup : Range → Range → Bool) (strict : Bool) (r : RoiCuts) {cs : List Cut}
    {e : Range} {c : Cone} {g : Gti} {gs : List Gti}
    (he : Spec.energyRanges cs = [e]) (hcl : e.closed = true) (hlo : 0 < e.lo) (hhi : 0 < e.hi)
    (hc : Spec.cones cs = [c]) (hg : Spec.gtis cs = g :: gs) :
    ∃ r', readCuts sup strict r cs = .ok r' ∧ r'.eMin = e.lo ∧ r'.eMax = e.hi ∧ r'.cone = c ∧
      r'.gtis = r.gtis ++ g :: gs ∧ r'.timeRanges = r.timeRanges ++ Spec.timeRanges cs ∧
      r'.muZenMax = -1 ∧ r'.minTime = (timeLoop gs g.minValue g.maxValue).1 ∧
      r'.maxTime = (timeLoop gs g.minValue g.maxValue).2 ∧
      makeEnergyVector e.lo e.hi 100 = .ok r'.energies := by
  obtain ⟨r1, n1, h1, h2, h3⟩ := sortLoop_one sup (cs := cs) { r with cuts := some cs } ⟨0, 0, 0⟩
    he hcl rfl
  obtain ⟨k1, k2, k3, k4, k5, k6⟩ := sortLoop_ok sup h1
  have hs : sortCuts sup strict { r with cuts := some cs } = .ok r1 := by
    unfold sortCuts
    simp only [h1, Res.bind_ok]
    rw [hc] at k5
    rw [hg] at k6
    simp only [List.length_cons, List.length_nil] at k5 k6
    have : ¬ n1.ntime = 0 := by omega
    simp [h3, k5, this]
  have hk : r1.skyCone = some c := by rw [k3, hc]; rfl
  have hcuts : r1.cuts = some cs := k4
  have hE := makeEnergyVector_ok (n := 100) hlo hhi (by norm_num)
  unfold readCuts
  rw [hs]
  simp only [Res.bind_ok, setRoiData, hcuts, gtiCuts_eq, hg, h2, hk, Option.getD_some, setCuts, hE,
    Bool.false_eq_true, ↓reduceIte]
  refine ⟨_, rfl, rfl, rfl, rfl, ?_, ?_, rfl, rfl, rfl, rfl⟩
  · show r1.gtis = _
    rw [k2, hg]
  · exact k1

end Verif.Roi
