import Mathlib.Tactic.NormNum
import Verif.FindSrc.Lemmas
/-
C110: the position found by gtfindsrc.
-/
set_option linter.unusedSectionVars false
set_option linter.unusedSimpArgs false
set_option linter.unusedVariables false

namespace Verif.FindSrc

open Verif

variable {B S : Type}

theorem report_ok {e : Setup B S} {o : Opts} {st : St B S} {out : Out B S}
    (h : report e o st = .ok out) :
    ∃ p src, (sortPoints st.points).getLast? = some p ∧ finish o p.at' st.spec = .ok src ∧
      out = ⟨sortPoints st.points, radius e p (sortPoints st.points), p.at',
        p.value + e.offset - 1, st.others, src⟩ := by
  unfold report at h
  split at h
  · cases h
  · rename_i p hp
    obtain ⟨src, h1, h2⟩ := Res.bind_eq_ok.1 h
    exact ⟨p, src, hp, h1, (Res.ok.inj h2).symm⟩

/-- **C110.** The output file lists the points that were tried, from the highest to the lowest
value; the position reported is the one tried last among those with the lowest value, and the
final value is minus the log-likelihood at that position, as it was found there. -/
theorem C110_best (e : Setup B S) (o : Opts) (b : B) (s₀ : S) (cs : List (ℝ × ℝ))
    (out : Out B S) (h : fitPosition e o b s₀ cs = .ok out) :
    ∃ tried n p, tried.map (·.at') = cs.take n ∧ out.points.Perm tried ∧
      out.points.Pairwise (fun x y => y.value ≤ x.value) ∧ Spec.Best tried p ∧
      out.best = p.at' ∧
      ∃ b' s', out.final = -e.logLike b' (if o.gal then e.gal out.best else e.cel out.best) s' := by
  unfold fitPosition at h
  obtain ⟨st, h1, h2⟩ := Res.bind_eq_ok.1 h
  obtain ⟨n, _, i2, _, i4, _⟩ := search_ok e o s₀ cs _ st h1
  obtain ⟨p, src, h3, _, rfl⟩ := report_ok h2
  refine ⟨st.points, n, p, by simpa using i2, sorted_perm _, sorted_pairwise _, sort_best _ _ h3,
    rfl, ?_⟩
  have hm : p ∈ st.points := (sorted_perm _).mem_iff.1 (List.mem_of_getLast? h3)
  obtain ⟨b', s', h5, _⟩ := i4 (fun q hq => by cases hq) p hm
  refine ⟨b', s', ?_⟩
  simp only
  rw [h5]
  unfold place
  ring

/-- **C110.** If the model is not fitted anew at each point, the position reported has the
highest log-likelihood of all points tried, and the final value is minus that. -/
theorem C110_fixed (e : Setup B S) (o : Opts) (b : B) (s₀ : S) (cs : List (ℝ × ℝ))
    (out : Out B S) (ho : o.reopt = false) (h : fitPosition e o b s₀ cs = .ok out) :
    out.final = -e.logLike b (if o.gal then e.gal out.best else e.cel out.best) s₀ ∧
    out.best ∈ cs ∧
    ∀ q ∈ out.points, e.logLike b (if o.gal then e.gal q.at' else e.cel q.at') s₀ ≤
      e.logLike b (if o.gal then e.gal out.best else e.cel out.best) s₀ := by
  unfold fitPosition at h
  obtain ⟨st, h1, h2⟩ := Res.bind_eq_ok.1 h
  obtain ⟨n, _, i2, _, _, i5⟩ := search_ok e o s₀ cs _ st h1
  obtain ⟨p, src, h3, _, rfl⟩ := report_ok h2
  obtain ⟨_, _, hv⟩ := i5 ho
  have hv := hv (fun q hq => by cases hq)
  have hm : p ∈ st.points := (sorted_perm _).mem_iff.1 (List.mem_of_getLast? h3)
  have hb := sort_best _ _ h3
  refine ⟨?_, ?_, ?_⟩
  · simp only
    rw [hv p hm]
    unfold place
    ring
  · have : p.at' ∈ st.points.map (·.at') := List.mem_map.2 ⟨p, hm, rfl⟩
    rw [i2] at this
    exact List.mem_of_mem_take (by simpa using this)
  · intro q hq
    have hq' : q ∈ st.points := (sorted_perm _).mem_iff.1 hq
    have := hb.1 q hq'
    rw [hv p hm, hv q hq'] at this
    unfold place at this
    simp only
    linarith

/-- **C110.** If minus the log-likelihood is a parabola of width `σ` in the separation from the
best position, at the points that are less than 2 above it, and one of these is away from the
best position, the radius reported is 1.51 `σ`, in degrees. -/
theorem C110_radius_partial (e : Setup B S) (o : Opts) (b : B) (s₀ : S) (cs : List (ℝ × ℝ))
    (out : Out B S) (h : fitPosition e o b s₀ cs = .ok out) (σ : ℝ) (hσ : 0 < σ)
    (hs : ∀ x, e.sep x x = 0)
    (hp : ∀ p, Spec.Best out.points p → Spec.Parabola e.sep p out.points σ)
    (hq : ∃ q ∈ out.points, q.value < out.final - e.offset + 1 + 2 ∧ e.sep out.best q.at' ≠ 0) :
    out.radius = 1.51 * (σ * 180 / Real.pi) := by
  classical
  unfold fitPosition at h
  obtain ⟨st, h1, h2⟩ := Res.bind_eq_ok.1 h
  obtain ⟨p, src, h3, _, rfl⟩ := report_ok h2
  simp only at hp hq ⊢
  set ps := sortPoints st.points with hps
  have hm : p ∈ ps := List.mem_of_getLast? h3
  have hbest : Spec.Best ps p := by
    refine ⟨last_least (sorted_pairwise _) h3, ps.dropLast, [], ?_, fun q hq => by cases hq⟩
    have hne : ps ≠ [] := by intro he; rw [he] at hm; cases hm
    rw [List.getLast?_eq_getLast hne] at h3
    rw [← Option.some.inj h3]
    exact (List.dropLast_append_getLast hne).symm
  have hpar := hp p hbest
  have hl : ∀ z ∈ nearby e p ps, z.2 = p.value + 1 / (2 * σ ^ 2) * z.1 := by
    intro z hz
    unfold nearby at hz
    obtain ⟨q, hq, rfl⟩ := List.mem_map.1 hz
    obtain ⟨hq1, hq2⟩ := List.mem_filter.1 hq
    have := hpar q hq1 (of_decide_eq_true hq2)
    simp only
    rw [this]
    ring
  obtain ⟨s1, s2⟩ := line _ _ _ hl
  have hden : 0 < den (nearby e p ps) := by
    obtain ⟨q, hq1, hq2, hq3⟩ := hq
    refine den_pos _ (e.sep p.at' p.at' * e.sep p.at' p.at', p.value)
      (e.sep p.at' q.at' * e.sep p.at' q.at', q.value) ?_ ?_ ?_
    · exact List.mem_map.2 ⟨p, List.mem_filter.2 ⟨hm, decide_eq_true (by linarith)⟩, rfl⟩
    · exact List.mem_map.2 ⟨q, List.mem_filter.2 ⟨hq1, decide_eq_true (by linarith)⟩, rfl⟩
    · simp only
      rw [hs]
      intro he
      exact hq3 (mul_self_eq_zero.1 (by linarith))
  have hnum : ((nearby e p ps).length : ℝ) * sumBy (fun z => z.1 * z.2) (nearby e p ps) -
      sumBy (fun z => z.2) (nearby e p ps) * sumBy (fun z => z.1) (nearby e p ps) =
      1 / (2 * σ ^ 2) * den (nearby e p ps) := by
    rw [s1, s2]
    unfold den
    ring
  have hA : 0 < 1 / (2 * σ ^ 2) := by positivity
  have hquot : 1 / (2 * σ ^ 2) * den (nearby e p ps) / den (nearby e p ps) = 1 / (2 * σ ^ 2) := by
    field_simp
  unfold radius errEst
  simp only
  rw [hnum]
  change (match (if den (nearby e p ps) = 0 ∨ 1 / (2 * σ ^ 2) * den (nearby e p ps) = 0 ∨
      1 / (2 * σ ^ 2) * den (nearby e p ps) / den (nearby e p ps) ≤ 0 then Res.throws else
      Res.ok (180 / Real.pi / Real.sqrt (2 * (1 / (2 * σ ^ 2) * den (nearby e p ps) /
        den (nearby e p ps))) * 1.51)) with | .ok r => r | _ => 0) = _
  rw [if_neg]
  · simp only
    rw [hquot]
    have : 2 * (1 / (2 * σ ^ 2)) = (1 / σ) ^ 2 := by field_simp
    rw [this, Real.sqrt_sq (by positivity)]
    have := Real.pi_pos
    field_simp
  · rw [hquot]
    push Not
    exact ⟨ne_of_gt hden, ne_of_gt (mul_pos hA hden), hA⟩

/-- **C110.** With celestial coordinates and no fit at each point, the source model that is left
has the target at the position reported, and minus its log-likelihood is the value
reported.  What is missing: see the theorems with the suffix `_violates`. -/
theorem C110_model_partial (e : Setup B S) (o : Opts) (b : B) (s₀ : S) (cs : List (ℝ × ℝ))
    (out : Out B S) (ho : o.reopt = false) (hg : o.gal = false) (ht : o.target = true)
    (hc : ∀ b c s, e.logLike b (e.cel c) s = e.logLike b c s) (h : fitPosition e o b s₀ cs = .ok out) :
    out.others = b ∧ out.source = some (out.best, s₀) ∧
      out.final = -e.logLike out.others out.best s₀ := by
  have h0 := (C110_fixed e o b s₀ cs out ho h).1
  unfold fitPosition at h
  obtain ⟨st, h1, h2⟩ := Res.bind_eq_ok.1 h
  obtain ⟨n, _, i2, _, _, i5⟩ := search_ok e o s₀ cs _ st h1
  obtain ⟨p, src, h3, h4, rfl⟩ := report_ok h2
  obtain ⟨j1, j2, _⟩ := i5 ho
  unfold finish at h4
  rw [ht, if_pos rfl] at h4
  obtain ⟨c, h5, h6⟩ := Res.bind_eq_ok.1 h4
  unfold setPosition at h5
  by_cases hb : Spec.InBounds p.at'
  · unfold Spec.InBounds at hb
    rw [if_pos hb] at h5
    cases Res.ok.inj h5
    refine ⟨j1, ?_, ?_⟩
    · simp only
      rw [← Res.ok.inj h6, j2 rfl]
    · simp only at h0 ⊢
      rw [j1, h0, hg, if_neg (by simp), hc]
  · unfold Spec.InBounds at hb
    rw [if_neg hb] at h5
    cases h5

/-! ### what goes wrong -/

/-- A sky in which galactic coordinates are shifted, and a log-likelihood with its maximum at the
celestial position (110, 0). -/
noncomputable def sky : Setup Unit Nat :=
  ⟨fun _ b _ s => some (b, s + 1), fun _ p s => -(p.1 - 110) ^ 2 - s, fun x y => x.1 - y.1,
    fun c => c, fun c => (c.1 + 100, c.2), 0⟩

theorem single (e : Setup Unit Nat) (o : Opts) (s₀ s : Nat) (c : ℝ × ℝ)
    (hf : refit e o s₀ () (place e o c) = .ok ((), s)) :
    fitPosition e o () s₀ [c] =
      report e o ⟨(), s, [⟨c, -e.logLike () (place e o c) s - e.offset + 1⟩]⟩ := by
  unfold fitPosition
  rw [search]
  unfold eval
  rw [hf, Res.bind_ok, Res.bind_ok]
  rw [if_neg (by simp [close]), search, Res.bind_ok]
  rfl

theorem report_one (e : Setup Unit Nat) (o : Opts) (s : Nat) (p : Pt) :
    report e o ⟨(), s, [p]⟩ = (do
      let src ← finish o p.at' s
      .ok ⟨[p], radius e p [p], p.at', p.value + e.offset - 1, (), src⟩) := by
  have : sortPoints [p] = [p] := by
    classical
    rfl
  unfold report
  rw [this]
  rfl

/-- **C110 is violated** with galactic coordinates: the galactic coordinates of the position
reported are written to the source model as right ascension and declination.  Here the best
position is `l = 10`, which is the right ascension 110, but the target is left at 10. -/
theorem C110_galactic_violates :
    ∃ out, fitPosition sky ⟨true, false, .abs, 0, true⟩ () 0 [(10, 0)] = .ok out ∧
      sky.gal out.best = (110, 0) ∧ out.source = some ((10, 0), 0) := by
  rw [single sky _ 0 0 (10, 0) rfl, report_one]
  have : finish ⟨true, false, .abs, 0, true⟩ ((10 : ℝ), (0 : ℝ)) (0 : Nat) =
      .ok (some ((10, 0), 0)) := by
    unfold finish setPosition
    rw [if_pos rfl, if_pos (by norm_num)]
    rfl
  simp only
  rw [this, Res.bind_ok]
  refine ⟨_, rfl, ?_, rfl⟩
  show ((10 : ℝ) + 100, (0 : ℝ)) = (110, 0)
  norm_num

/-- **C110 is violated** at the ends of the range of right ascension: the search may go beyond
360 degrees, and then the result cannot be stored and an exception ends the run. -/
theorem C110_bounds_violates :
    fitPosition sky ⟨false, false, .abs, 0, true⟩ () 0 [(360.1, 0)] = .throws := by
  rw [single sky _ 0 0 (360.1, 0) rfl, report_one]
  have : finish ⟨false, false, .abs, 0, true⟩ ((360.1 : ℝ), (0 : ℝ)) (0 : Nat) = .throws := by
    unfold finish setPosition
    rw [if_pos rfl, if_neg (by norm_num)]
    rfl
  simp only
  rw [this]
  rfl

/-- **C110 is violated** when no radius can be estimated: zero is reported, as if the position
were exact.  Here one position was tried. -/
theorem C110_radius_violates :
    ∃ out, fitPosition sky ⟨false, false, .abs, 0, false⟩ () 0 [(100, 0)] = .ok out ∧
      out.radius = 0 ∧ out.best ≠ (110, 0) := by
  rw [single sky _ 0 0 (100, 0) rfl, report_one]
  refine ⟨_, rfl, ?_, ?_⟩
  · simp only
    unfold radius errEst nearby
    simp [sumBy, sky]
  · simp only
    intro h
    have := congrArg Prod.fst h
    norm_num at this

/-- A fit that finds the spectrum 3 at the right position and 7 elsewhere. -/
noncomputable def drift : Setup Unit Nat :=
  ⟨fun _ b p _ => some (b, open Classical in if p.1 = 110 then 3 else 7),
    fun _ p s => -(p.1 - 110) ^ 2 - ((s : ℝ) - 3) ^ 2, fun x y => x.1 - y.1,
    fun c => c, fun c => c, 0⟩

/-- **C110 is violated** when the model is fitted anew at each point: the spectrum that is left
in the model is that of the point tried last, not of the best one.  Here the value reported
is 0, but minus the log-likelihood of the model that is written is 16. -/
theorem C110_spectrum_violates :
    ∃ out, fitPosition drift ⟨false, true, .abs, 0, true⟩ () 0 [(110, 0), (100, 0)] = .ok out ∧
      out.best = (110, 0) ∧ out.final = 0 ∧ out.source = some ((110, 0), 7) ∧
      -drift.logLike () (110, 0) 7 = 16 := by
  have h1 : refit drift ⟨false, true, .abs, 0, true⟩ 0 () (110, 0) = .ok ((), 3) := by
    unfold refit drift
    simp
  have h2 : refit drift ⟨false, true, .abs, 0, true⟩ 0 () (100, 0) = .ok ((), 7) := by
    unfold refit drift
    simp
  have p1 : ∀ c, place drift ⟨false, true, .abs, 0, true⟩ c = c := fun _ => rfl
  have v1 : -drift.logLike () (110, 0) 3 - drift.offset + 1 = 1 := by
    simp [drift]
  have v2 : -drift.logLike () (100, 0) 7 - drift.offset + 1 = 117 := by
    simp [drift]
    norm_num
  have hs : search drift ⟨false, true, .abs, 0, true⟩ 0 [(110, 0), (100, 0)] ⟨(), 0, []⟩ =
      .ok ⟨(), 7, [⟨(110, 0), 1⟩, ⟨(100, 0), 117⟩]⟩ := by
    rw [search]
    unfold eval
    simp only [p1]
    rw [h1, Res.bind_ok, Res.bind_ok, if_neg (by simp [close]), search]
    unfold eval
    simp only [p1]
    rw [h2, Res.bind_ok, Res.bind_ok, if_neg (by simp [close]), search]
    simp only [v1, v2]
    rfl
  have ho : sortPoints [⟨(110, 0), 1⟩, ⟨(100, 0), 117⟩] = [⟨(100, 0), 117⟩, ⟨(110, 0), 1⟩] := by
    classical
    have hn : ¬ Above ⟨(110, 0), 1⟩ ⟨(100, 0), 117⟩ := by
      unfold Above
      norm_num
    unfold sortPoints
    rw [List.insertionSort_cons, List.insertionSort_cons, List.insertionSort_nil,
      List.orderedInsert_nil, List.orderedInsert, if_neg hn, List.orderedInsert_nil]
  unfold fitPosition
  rw [hs, Res.bind_ok]
  unfold report
  simp only [ho, List.getLast?_cons_cons, List.getLast?_singleton]
  have hfin : finish ⟨false, true, .abs, 0, true⟩ ((110 : ℝ), (0 : ℝ)) (7 : Nat) =
      .ok (some ((110, 0), 7)) := by
    unfold finish setPosition
    rw [if_pos rfl, if_pos (by norm_num)]
    rfl
  rw [hfin, Res.bind_ok]
  refine ⟨_, rfl, rfl, ?_, rfl, ?_⟩
  · simp [drift]
  · simp [drift]
    norm_num

/-- **C110.** The kind of tolerance has no effect: that of `toltype` is not passed on, so that
the option `REL` is ignored. -/
theorem C110_tolerance_violates (e : Setup B S) (o : Opts) (b : B) (s₀ : S) (cs : List (ℝ × ℝ)) :
    fitPosition e { o with tol := .rel } b s₀ cs = fitPosition e { o with tol := .abs } b s₀ cs := by
  have he : ∀ st c, eval e { o with tol := .rel } s₀ st c = eval e { o with tol := .abs } s₀ st c :=
    fun _ _ => rfl
  have hs : ∀ cs st, search e { o with tol := .rel } s₀ cs st =
      search e { o with tol := .abs } s₀ cs st := by
    intro cs
    induction cs with
    | nil => intro st; rfl
    | cons c cs ih =>
      intro st
      rw [search, search, he]
      cases eval e { o with tol := .abs } s₀ st c with
      | ok st' =>
        rw [Res.bind_ok, Res.bind_ok]
        have : close e { o with tol := .rel } st'.points = close e { o with tol := .abs } st'.points :=
          rfl
        rw [this]
        split
        · rfl
        · exact ih st'
      | throws => rfl
      | ub => rfl
  unfold fitPosition
  rw [hs]
  rfl

-- the hypotheses of `C110_fixed` and `C110_model_partial` are met
example : ∃ out, fitPosition sky ⟨false, false, .abs, 0, true⟩ () 0 [(110, 0)] = .ok out ∧
    out.best = (110, 0) := by
  rw [single sky _ 0 0 (110, 0) rfl, report_one]
  have : finish ⟨false, false, .abs, 0, true⟩ ((110 : ℝ), (0 : ℝ)) (0 : Nat) =
      .ok (some ((110, 0), 0)) := by
    unfold finish setPosition
    rw [if_pos rfl, if_pos (by norm_num)]
    rfl
  simp only
  rw [this, Res.bind_ok]
  exact ⟨_, rfl, rfl⟩
example : ∀ b c s, sky.logLike b (sky.cel c) s = sky.logLike b c s := fun _ _ _ => rfl
-- points on a parabola
example : Spec.Parabola sky.sep ⟨(110, 0), 1⟩ [⟨(111, 0), 1.5⟩, ⟨(110, 0), 1⟩] 1 := by
  intro q hq _
  simp at hq
  rcases hq with rfl | rfl <;> simp [sky] <;> norm_num
example : ∀ p, Spec.Best [⟨(111, 0), 1.5⟩, ⟨(110, 0), 1⟩] p → p = ⟨(110, 0), 1⟩ := by
  rintro p ⟨h1, l₁, l₂, h2, _⟩
  have hm : p ∈ ([⟨(111, 0), 1.5⟩, ⟨(110, 0), 1⟩] : List Pt) := by rw [h2]; simp
  simp at hm
  rcases hm with rfl | rfl
  · have := h1 ⟨(110, 0), 1⟩ (by simp)
    norm_num at this
  · rfl

end Verif.FindSrc
