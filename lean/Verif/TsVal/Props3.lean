import Verif.TsVal.Props2
/-
Properties of the test statistics of gtlike: where they fail, and a case that meets the
hypotheses of the theorems.
-/
set_option linter.unusedSectionVars false
set_option linter.unusedVariables false
set_option linter.unusedSimpArgs false
namespace Verif.TsVal

open Verif Spec

/-! ### the bounds of a normalisation -/

/-- A point source with a free normalisation 1, at most 3/2. -/
noncomputable def pt : Src Bool := ⟨.point true, [⟨1, 0, 3 / 2, true⟩], 0⟩

/-- Two of them in a model. -/
noncomputable def two : Mod ℕ Bool := [(0, pt), (1, pt)]

/-- The normalisation of a source. -/
noncomputable def normOf (s : Src Bool) : ℝ :=
  match s.pars[s.norm]? with
  | some p => p.value
  | none => 0

/-- Counts equal to the normalisation, a log-likelihood with its maximum where the counts
are 2. -/
noncomputable def bounded : Setup ℕ Bool where
  value := fun m => some (-((m.map (fun x => normOf x.2)).sum - 2) ^ 2)
  npred := normOf
  sep := fun _ _ => 0
  observed := 2
  fit := fun _ => []
  tsmin := false
  binned := false
  centre := true

theorem bounded_linear : Linear bounded := by
  intro c s hs
  show normOf (rescale c s) = c * normOf s
  unfold normOf rescale
  simp only [List.getElem?_modify, if_true]
  rw [List.getElem?_eq_getElem hs]
  show s.pars[s.norm].value * c = c * s.pars[s.norm].value
  ring

theorem collect_two : collect two = [⟨1, 0, 3 / 2, true⟩, ⟨1, 0, 3 / 2, true⟩] := rfl

theorem near_pt : isDiffuseOrNearby bounded true pt = true := by
  rw [nearby_iff]
  intro e _
  show (0 : ℝ) < 20
  norm_num

/-- C107, negation for `tsmin=no`: the fitted model is the best there is, and predicts the
observed counts; yet to make up for the counts of the source left out the normalisation of
the other one is set beyond its bound.  The exception is not caught, so no test statistic is
reported; gtlike ends before the fitted model is written (likelihood.cxx:307-308). -/
theorem C107_bound_violates :
    ∃ (S : Setup ℕ Bool) (m : Mod ℕ Bool), Ordered m ∧ InBounds m ∧ Linear S ∧
      S.tsmin = false ∧ (∀ m', S.value m' ≠ none) ∧ total S m = S.observed ∧
      (∃ l, S.value m = some l ∧ ∀ m' l', S.value m' = some l' → l' ≤ l) ∧
      computeTsValues S m = .throws := by
  refine ⟨bounded, two, ?_, ?_, bounded_linear, rfl, (fun m' h => by cases h), ?_, ?_, ?_⟩
  · simp [Ordered, two]
  · intro x hx p hp
    simp only [two, List.mem_cons, List.not_mem_nil, or_false] at hx
    rcases hx with rfl | rfl <;>
    · simp only [pt, List.mem_cons, List.not_mem_nil, or_false] at hp
      subst hp
      norm_num
  · show ([normOf pt, normOf pt] : List ℝ).sum = 2
    have : normOf pt = 1 := rfl
    rw [this]; norm_num
  · refine ⟨0, ?_, ?_⟩
    · show some (-(([normOf pt, normOf pt] : List ℝ).sum - 2) ^ 2) = some 0
      have : normOf pt = 1 := rfl
      rw [this]; norm_num
    · intro m' l' h
      have h' : -((m'.map (fun x => normOf x.2)).sum - 2) ^ 2 = l' := Option.some.inj h
      rw [← h']
      have := sq_nonneg ((m'.map (fun x => normOf x.2)).sum - 2)
      linarith
  · have hre : renorm bounded true [((1 : ℕ), pt)] = .throws := by
      have hn : npredValues bounded true [((1 : ℕ), pt)] (0, 0) = .ok (0 + 1, 0 + 1) := by
        show npredValues bounded true [] (if (true && isDiffuseOrNearby bounded true pt) = true
          then 0 + normOf pt else 0, 0 + normOf pt) = _
        rw [if_pos (by rw [near_pt]; rfl)]
        rfl
      unfold renorm
      rw [hn]
      simp only [Res.bind_ok]
      unfold renormBy
      rw [if_neg (by norm_num)]
      have hfac : factor bounded (0 + 1) (0 + 1) = 2 := by
        unfold factor
        show (if 1 + ((2 : ℝ) - (0 + 1)) / (0 + 1) < 1 then 1 else 1 + ((2 : ℝ) - (0 + 1)) / (0 + 1)) = 2
        rw [if_neg (by norm_num)]; norm_num
      rw [hfac]
      have hs : renormSrc bounded true 2 pt = .throws := by
        show (if (true && isDiffuseOrNearby bounded true pt) = true then
          (setValue ⟨1, 0, 3 / 2, true⟩ (1 * 2) >>= fun p' => Res.ok { pt with pars := pt.pars.set pt.norm p' })
          else Res.ok pt) = .throws
        rw [if_pos (by rw [near_pt]; rfl)]
        unfold setValue
        rw [if_neg (by norm_num)]
        rfl
      unfold renormLoop
      rw [hs]; rfl
    have hnf : nullFit bounded true [((1 : ℕ), pt)] = .throws := by
      show (renorm bounded true [((1 : ℕ), pt)] >>= _) = Res.throws
      rw [hre]; rfl
    have hps : ∀ lv, pointStep bounded lv (freeValues two) 0 true pt ⟨two, [], []⟩ = .throws := by
      intro lv
      show (nullFit bounded true [((1 : ℕ), pt)] >>= _) = Res.throws
      rw [hnf]; rfl
    show (tsLoop bounded _ (freeValues two) [0, 1] ⟨two, [], []⟩ >>= _) = Res.throws
    unfold tsLoop
    have hts : ∀ lv, tsStep bounded lv (freeValues two) 0 ⟨two, [], []⟩ = .throws := hps
    rw [hts]; rfl

/-! ### `tsmin=no` and the other parameters -/

/-- A point source with one free parameter. -/
noncomputable def star : Src Bool := ⟨.point true, [⟨1, 0, 10, true⟩], 0⟩

/-- A diffuse source with a fixed normalisation and a free index 0. -/
noncomputable def sky : Src Bool := ⟨.diffuse, [⟨1, 0, 10, false⟩, ⟨0, -10, 10, true⟩], 0⟩

/-- Both in a model. -/
noncomputable def pair : Mod ℕ Bool := [(0, star), (1, sky)]

/-- The index of a source. -/
noncomputable def indexOf (s : Src Bool) : ℝ :=
  match s.pars[1]? with
  | some p => p.value
  | none => 0

/-- The log-likelihood: the best index is 0 with the point source, 1 without it. -/
noncomputable def tilted (b : ℝ) : Mod ℕ Bool → ℝ
  | [_, x] => -(indexOf x.2) ^ 2
  | [x] => -b * (indexOf x.2 - 1) ^ 2
  | _ => 0

/-- A setup with the default `tsmin=no`. -/
noncomputable def tilt (b : ℝ) (ts : Bool) : Setup ℕ Bool where
  value := fun m => some (tilted b m)
  npred := fun _ => 1
  sep := fun _ _ => 0
  observed := 2
  fit := fun _ => [1]
  tsmin := ts
  binned := false
  centre := true

theorem pair_ordered : Ordered pair := by simp [Ordered, pair]

theorem pair_bounds : InBounds pair := by
  intro x hx p hp
  simp only [pair, List.mem_cons, List.not_mem_nil, or_false] at hx
  rcases hx with rfl | rfl
  · simp only [star, List.mem_cons, List.not_mem_nil, or_false] at hp
    subst hp; norm_num
  · simp only [sky, List.mem_cons, List.not_mem_nil, or_false] at hp
    rcases hp with rfl | rfl <;> norm_num

theorem pair_null : null pair 0 = [(1, sky)] := rfl

theorem greatest (b : ℝ) (hb : 0 < b) (ts : Bool) :
    IsGreatest (NullValues (tilt b ts) pair 0) 0 := by
  constructor
  · refine ⟨[(1, ⟨.diffuse, [⟨1, 0, 10, false⟩, ⟨1, -10, 10, true⟩], 0⟩)], ?_, ?_⟩
    · rw [pair_null]
      refine .cons ⟨rfl, rfl, rfl, .cons (SamePar.refl _) (.cons ⟨rfl, rfl, rfl, ?_⟩ .nil)⟩ .nil
      intro h; cases h
    · show some (-b * ((1 : ℝ) - 1) ^ 2) = some 0
      norm_num
  · rintro v ⟨m', hm', hv⟩
    rw [pair_null] at hm'
    cases hm' with
    | cons h1 h2 =>
      cases h2
      rename_i y
      have hv' : -b * (indexOf y.2 - 1) ^ 2 = v := Option.some.inj hv
      rw [← hv']
      have := mul_nonneg hb.le (sq_nonneg (indexOf y.2 - 1))
      linarith

theorem tilt_setFree : setFree pair (freeValues pair) = .ok pair :=
  setFree_restore (Variant.refl pair) pair_bounds

/-- With `tsmin=no` nothing is rescaled here. -/
theorem tilt_renorm (b : ℝ) : renorm (tilt b false) true [((1 : ℕ), sky)] = .ok [(1, sky)] := by
  have hn : npredValues (tilt b false) true [((1 : ℕ), sky)] (0, 0) = .ok (0, 0 + 1) := rfl
  unfold renorm
  rw [hn]
  simp only [Res.bind_ok]
  unfold renormBy
  rw [if_pos (le_refl _)]

theorem tilt_compute (b : ℝ) :
    ∃ r, computeTsValues (tilt b false) pair = .ok r ∧ (0, 2 * b) ∈ r.ts := by
  have hnf : nullFit (tilt b false) true [((1 : ℕ), sky)] = .ok ([(1, sky)], -b) := by
    show (renorm (tilt b false) true [((1 : ℕ), sky)] >>= fun m' =>
      value (tilt b false) m' >>= fun v1 =>
        Res.ok (m', max v1 (-b * ((0 : ℝ) - 1) ^ 2))) = _
    rw [tilt_renorm]
    show Res.ok ([((1 : ℕ), sky)], max (-b * ((0 : ℝ) - 1) ^ 2) (-b * ((0 : ℝ) - 1) ^ 2)) = _
    rw [max_self]; norm_num
  have h0 : tsStep (tilt b false) (-(0 : ℝ) ^ 2) (freeValues pair) 0 ⟨pair, [], []⟩
      = .ok ⟨pair, [(0, 2 * (-(0 : ℝ) ^ 2 - -b))], [(0, 0)]⟩ := by
    show (nullFit (tilt b false) true [((1 : ℕ), sky)] >>= fun r =>
      setFree (StdMap.put r.1 0 star) (freeValues pair) >>= fun back =>
        Res.ok (St.mk back (StdMap.put [] 0 (2 * (-(0 : ℝ) ^ 2 - r.2))) (StdMap.put [] 0 0))) = _
    rw [hnf]
    show (setFree pair (freeValues pair) >>= _) = _
    rw [tilt_setFree]; rfl
  refine ⟨⟨pair, [(0, 2 * (-(0 : ℝ) ^ 2 - -b))], [(0, 0)]⟩, ?_, ?_⟩
  · show (tsStep (tilt b false) (-(0 : ℝ) ^ 2) (freeValues pair) 0 ⟨pair, [], []⟩ >>= fun st' =>
      tsLoop (tilt b false) (-(0 : ℝ) ^ 2) (freeValues pair) [1] st') >>= _ = _
    rw [h0]
    show (setFree pair (freeValues pair) >>= _) = _
    rw [tilt_setFree]; rfl
  · have : 2 * (-(0 : ℝ) ^ 2 - -b) = 2 * b := by ring
    rw [this]; simp

/-- C107, negation for `tsmin=no`: the test statistic reported can exceed the likelihood
ratio by any amount, here it is `2b` while the source improves the best log-likelihood by
nothing: spectral parameters of the other sources are not fitted again. -/
theorem C107_default_violates (b : ℝ) (hb : 0 < b) :
    ∃ (S : Setup ℕ Bool) (m : Mod ℕ Bool) (r : St ℕ Bool), Ordered m ∧ InBounds m ∧
      S.tsmin = false ∧ computeTsValues S m = .ok r ∧ S.value m = some 0 ∧
      IsGreatest (NullValues S m 0) 0 ∧ (0, 2 * b) ∈ r.ts := by
  obtain ⟨r, h1, h2⟩ := tilt_compute b
  refine ⟨tilt b false, pair, r, pair_ordered, pair_bounds, rfl, h1, ?_, greatest b hb false, h2⟩
  show some (-(0 : ℝ) ^ 2) = some 0
  norm_num

/-! ### a case that meets the hypotheses -/

/-- The hypotheses of `C107_restores`, `C107_value`, `C107_bounds`, `C107_sources`,
`C107_distances` and `C107_rescaled_partial` hold of a model with a point source and a
diffuse one. -/
example : ∃ r, computeTsValues (tilt 3 false) pair = .ok r ∧ Ordered pair ∧ InBounds pair ∧
    (∀ m', (tilt 3 false).value m' ≠ none) ∧ (0, 6) ∈ r.ts ∧ Tested pair 0 true ∧
    (∃ x ∈ null pair 0, HasFree x.2) := by
  obtain ⟨r, h1, h2⟩ := tilt_compute 3
  refine ⟨r, h1, pair_ordered, pair_bounds, (fun m' h => by cases h), ?_, ?_, ?_⟩
  · have : (2 : ℝ) * 3 = 6 := by norm_num
    rwa [this] at h2
  · exact ⟨star, by simp [pair], rfl, ⟨1, 0, 10, true⟩, by simp [star], rfl⟩
  · exact ⟨(1, sky), by rw [pair_null]; simp, ⟨0, -10, 10, true⟩, by simp [sky], rfl⟩

/-- The hypotheses of `C107_fitted_partial` and `C107_completes_partial` hold with
`tsmin=yes` and an optimizer that finds the best index; the point source then has test
statistic zero. -/
example : ∃ r, computeTsValues (tilt 3 true) pair = .ok r ∧ (0, 0) ∈ r.ts := by
  obtain ⟨r, h⟩ := C107_completes_partial (tilt 3 true) pair pair_ordered pair_bounds rfl
    (fun m' h => by cases h)
  refine ⟨r, h, ?_⟩
  obtain ⟨t, ht⟩ := ((C107_sources (tilt 3 true) pair pair_ordered pair_bounds
    (fun m' h => by cases h) r h 0).1).2
    ⟨true, star, by simp [pair], rfl, ⟨1, 0, 10, true⟩, by simp [star], rfl⟩
  obtain ⟨l, v, h1, h2, h3⟩ := C107_fitted_partial (tilt 3 true) pair pair_ordered pair_bounds rfl
    r h 0 t ht rfl (by
      intro m' hm' hv
      rw [pair_null] at hm'
      refine ⟨tilted 3 m', rfl, ?_⟩
      intro w hw
      have hw0 := (greatest 3 (by norm_num) true).2 hw
      cases hm' with
      | cons g1 g2 =>
        cases g2
        rename_i y
        obtain ⟨k, s⟩ := y
        obtain ⟨e1, e2, e3, e4⟩ := g1
        obtain ⟨kd, ps, nn⟩ := s
        simp only [sky] at e4
        cases e4 with
        | cons f1 f2 =>
          cases f2 with
          | cons f3 f4 =>
            cases f4
            rename_i p q
            have hp : p.free = false := f1.2.2.1
            have hq : q.free = true := f3.2.2.1
            have : freeVals [(k, (⟨kd, [p, q], nn⟩ : Src Bool))] = [q.value] := by
              simp [freeVals, hp, hq]
            rw [this] at hv
            have hq1 : q.value = 1 := by
              have : [q.value] = [(1 : ℝ)] := hv
              simpa using this
            have : tilted 3 [(k, (⟨kd, [p, q], nn⟩ : Src Bool))] = 0 := by
              show -(3 : ℝ) * (q.value - 1) ^ 2 = 0
              rw [hq1]; norm_num
            rw [this]; exact hw0)
  have e1 : l = 0 := by
    have : some (-(0 : ℝ) ^ 2) = some l := h1
    have := Option.some.inj this
    rw [← this]; norm_num
  have e2 : v = 0 := h2.unique (greatest 3 (by norm_num) true)
  rw [e1, e2] at h3
  rw [h3] at ht
  simpa using ht

end Verif.TsVal
