import Verif.TsVal.Props
/-
Properties of the test statistics of gtlike: fitted and rescaled null hypotheses.
-/
set_option linter.unusedSectionVars false
set_option linter.unusedVariables false
set_option linter.unusedSimpArgs false
namespace Verif.TsVal

open Verif Spec

variable {κ D : Type}

theorem freeVals_eq (m : Mod κ D) : freeValues m = freeVals m := by
  induction m with
  | nil => rfl
  | cons x m ih =>
    obtain ⟨k, s⟩ := x
    simp only [freeValues, collect, freeVals, List.flatMap_cons, List.filter_append,
      List.map_append] at ih ⊢
    rw [ih]

theorem leavePars_vals (ps : List Par) (vs rest : List ℝ)
    (h : vs.length = (ps.filter (·.free)).length) :
    ((leavePars ps (vs ++ rest)).1.filter (·.free)).map (·.value) = vs ∧
    (leavePars ps (vs ++ rest)).2 = rest := by
  induction ps generalizing vs with
  | nil =>
    have : vs = [] := List.length_eq_zero_iff.1 h
    subst this; exact ⟨rfl, rfl⟩
  | cons p ps ih =>
    unfold leavePars
    cases hf : p.free with
    | true =>
      rw [List.filter_cons_of_pos hf] at h
      cases vs with
      | nil => simp at h
      | cons v vs =>
        have := ih vs (by simpa using h)
        simp only [if_true, List.cons_append]
        rw [List.filter_cons_of_pos rfl, List.map_cons, this.1]
        exact ⟨rfl, this.2⟩
    | false =>
      rw [List.filter_cons_of_neg (by rw [hf]; simp)] at h
      have := ih vs h
      simp only [Bool.false_eq_true, if_false]
      rw [List.filter_cons_of_neg (by rw [hf]; simp)]
      exact this

theorem leave_vals (m : Mod κ D) (vs : List ℝ) (h : vs.length = (freeVals m).length) :
    freeVals (leave m vs) = vs := by
  induction m generalizing vs with
  | nil => exact (List.length_eq_zero_iff.1 h).symm
  | cons x m ih =>
    obtain ⟨k, s⟩ := x
    simp only [freeVals, List.flatMap_cons, List.length_append, List.length_map] at h ih
    have e : vs = vs.take (s.pars.filter (·.free)).length
        ++ vs.drop (s.pars.filter (·.free)).length := (List.take_append_drop _ _).symm
    have h1 := leavePars_vals s.pars (vs.take (s.pars.filter (·.free)).length)
      (vs.drop (s.pars.filter (·.free)).length) (by rw [List.length_take]; omega)
    rw [← e] at h1
    simp only [leave, freeVals, List.flatMap_cons]
    rw [h1.1, h1.2, ih _ (by rw [List.length_drop]; omega)]
    exact e.symm

theorem rescale_one (s : Src D) : rescale 1 s = s := by
  unfold rescale
  obtain ⟨k, ps, i⟩ := s
  simp only [mul_one]
  congr 1
  exact List.modify_id _ _

variable [LinearOrder κ]

theorem hasFree_iff (m : Mod κ D) : 0 < numFree (collect m) ↔ ∃ x ∈ m, HasFree x.2 := by
  rw [numFree_pos]
  induction m with
  | nil => simp [collect]
  | cons x m ih =>
    obtain ⟨k, s⟩ := x
    simp only [collect, List.mem_append, List.mem_cons, exists_eq_or_imp, HasFree] at ih ⊢
    rw [← ih]
    constructor
    · rintro ⟨p, h1 | h1, h2⟩
      · exact .inl ⟨p, h1, h2⟩
      · exact .inr ⟨p, h1, h2⟩
    · rintro (⟨p, h1, h2⟩ | ⟨p, h1, h2⟩)
      · exact ⟨p, .inl h1, h2⟩
      · exact ⟨p, .inr h1, h2⟩

/-- C107, fitted null hypothesis: with `tsmin=yes` and an optimizer that finds the best
parameters of the others, the test statistic reported is the likelihood ratio: twice the
difference to the largest log-likelihood without the source. -/
theorem C107_fitted_partial (S : Setup κ D) (m : Mod κ D) (ho : Ordered m) (hb : InBounds m)
    (hts : S.tsmin = true) (r : St κ D) (h : computeTsValues S m = .ok r) (n : κ) (t : ℝ)
    (ht : (n, t) ∈ r.ts)
    (hlen : (S.fit (null m n)).length = (freeVals (null m n)).length)
    (hopt : ∀ m', Variant (null m n) m' → freeVals m' = S.fit (null m n) →
      ∃ v, S.value m' = some v ∧ ∀ w ∈ NullValues S m n, w ≤ v) :
    ∃ l v, S.value m = some l ∧ IsGreatest (NullValues S m n) v ∧ t = 2 * (l - v) := by
  obtain ⟨lv, hlv, hd⟩ := compute_done ho hb h
  obtain ⟨_, d, htd, he⟩ := hd.entry n t (StdMap.find_of_mem hd.sts ht)
  rcases he with ⟨_, m', v, hf, rfl⟩ | ⟨hz, v, hv, rfl⟩
  · unfold nullFit at hf
    obtain ⟨v0, h0, hf⟩ := Res.bind_eq_ok.1 hf
    obtain ⟨m1, h1, hf⟩ := Res.bind_eq_ok.1 hf
    obtain ⟨v1, h2, hf⟩ := Res.bind_eq_ok.1 hf
    cases hf
    unfold refit at h1
    rw [if_pos hts] at h1
    cases h1
    rw [value_ok] at h0 h2
    obtain ⟨v, e1, e2⟩ := hopt _ (leave_variant _ _) (leave_vals _ _ hlen)
    rw [h2] at e1; cases e1
    rw [max_eq_left (e2 v0 ⟨_, Variant.refl _, h0⟩)]
    exact ⟨lv, v1, hlv, ⟨⟨_, leave_variant _ _, h2⟩, e2⟩, rfl⟩
  · have e : freeVals (null m n) = [] := by
      apply List.length_eq_zero_iff.1
      rw [← freeVals_eq]
      unfold numFree at hz
      simp only [freeValues, List.length_map]
      omega
    have e' : S.fit (null m n) = [] := by
      rw [e] at hlen; exact List.length_eq_zero_iff.1 hlen
    obtain ⟨w, e1, e2⟩ := hopt _ (Variant.refl _) (by rw [e, e'])
    rw [hv] at e1; cases e1
    exact ⟨lv, v, hlv, ⟨⟨_, Variant.refl _, hv⟩, e2⟩, rfl⟩

/-- C107, rescaled null hypothesis: with `tsmin=no` the normalisations of the diffuse and
nearby sources that are free are multiplied by one number, not below one, and nothing else
is changed; if the predicted counts are proportional to the normalisations, the model used
predicts the observed counts, unless it predicts more already or nothing can be rescaled.
The test statistic is that of the more likely of this model and the one with the fitted
parameters. -/
theorem C107_rescaled_partial (S : Setup κ D) (m : Mod κ D) (ho : Ordered m) (hb : InBounds m)
    (hts : S.tsmin = false) (r : St κ D) (h : computeTsValues S m = .ok r) (n : κ) (t : ℝ)
    (ht : (n, t) ∈ r.ts) (hfree : ∃ x ∈ null m n, HasFree x.2) (d : D) (hd : Tested m n d) :
    ∃ (c : ℝ) (m' : Mod κ D) (l l0 v : ℝ), 1 ≤ c ∧
      List.Forall₂ (fun x y => y.1 = x.1 ∧
        ((Scaled S d x.2 ∧ y.2 = rescale c x.2) ∨ (¬ Scaled S d x.2 ∧ y.2 = x.2))) (null m n) m' ∧
      S.value m = some l ∧ S.value (null m n) = some l0 ∧ S.value m' = some v ∧
      t = 2 * (l - max v l0) ∧
      (open Classical in Linear S →
        0 < (((null m n).filter (fun x => Scaled S d x.2)).map (fun x => S.npred x.2)).sum →
        total S m' = max S.observed (total S (null m n))) := by
  obtain ⟨lv, hlv, hD⟩ := compute_done ho hb h
  obtain ⟨_, d', htd, he⟩ := hD.entry n t (StdMap.find_of_mem hD.sts ht)
  have : d' = d := by
    obtain ⟨s, h1, h2, _⟩ := hd
    obtain ⟨s', h1', h2', _⟩ := htd
    have e1 := StdMap.find_of_mem (ordered_iff.1 ho) h1
    have e2 := StdMap.find_of_mem (ordered_iff.1 ho) h1'
    rw [e1] at e2; cases e2
    rw [h2] at h2'; cases h2'; rfl
  subst this
  rcases he with ⟨_, m', v, hf, rfl⟩ | ⟨hz, _⟩
  · unfold nullFit at hf
    obtain ⟨v0, h0, hf⟩ := Res.bind_eq_ok.1 hf
    obtain ⟨m1, h1, hf⟩ := Res.bind_eq_ok.1 hf
    obtain ⟨v1, h2, hf⟩ := Res.bind_eq_ok.1 hf
    cases hf
    unfold refit at h1
    rw [if_neg (by rw [hts]; simp)] at h1
    rw [value_ok] at h0 h2
    have key : ∃ c, 1 ≤ c ∧ Renormed S d' c (null m n) m' := by
      unfold renorm at h1
      obtain ⟨q, _, h3⟩ := Res.bind_eq_ok.1 h1
      unfold renormBy at h3
      split at h3
      · cases h3
        refine ⟨1, le_refl _, List.forall₂_same.2 ?_⟩
        intro x _
        refine ⟨rfl, ?_⟩
        by_cases hs : Scaled S d' x.2
        · exact .inl ⟨hs, (rescale_one _).symm⟩
        · exact .inr ⟨hs, rfl⟩
      · refine ⟨_, ?_, renormLoop_ok h3⟩
        unfold factor
        split
        · exact le_refl _
        · rename_i hh; exact not_lt.1 hh
    obtain ⟨c, hc, hR⟩ := key
    exact ⟨c, m', lv, v0, v1, hc, hR, hlv, h0, h2, rfl, fun hl hp => renorm_total h1 hl hp⟩
  · exact absurd ((hasFree_iff _).2 hfree) hz

/-- C107, no failure: with `tsmin=yes` the test statistics of any model are computed
without an exception, whatever the optimizer does, if the log-likelihood can be computed. -/
theorem C107_completes_partial (S : Setup κ D) (m : Mod κ D) (ho : Ordered m) (hb : InBounds m)
    (hts : S.tsmin = true) (hv : ∀ m', S.value m' ≠ none) :
    ∃ r, computeTsValues S m = .ok r := by
  have hs := ordered_iff.1 ho
  have hval : ∀ m', ∃ v, value S m' = .ok v := by
    intro m'
    cases e : S.value m' with
    | none => exact absurd e (hv m')
    | some v => exact ⟨v, value_ok.2 e⟩
  obtain ⟨lv, hlv⟩ := hval m
  have hstep : ∀ n ∈ StdMap.keys m, ∀ st : St κ D, st.mod = m →
      ∃ st', tsStep S lv (freeValues m) n st = .ok st' := by
    intro n hn st hm
    obtain ⟨s, hf⟩ := StdMap.mem_keys_iff.1 hn
    unfold tsStep
    rw [hm, hf]
    simp only
    cases hk : s.kind with
    | diffuse => exact ⟨st, rfl⟩
    | composite => exact ⟨st, rfl⟩
    | point d =>
      simp only
      by_cases hp : 0 < numFree s.pars
      · rw [if_pos hp]
        unfold pointStep
        simp only [hm, erase_eq_null hs n]
        have hback : ∀ m', Variant (null m n) m' →
            setFree (StdMap.put m' n s) (freeValues m) = .ok m := by
          intro m' hv
          apply setFree_restore _ hb
          have := put_variant hv n s
          rwa [← erase_eq_null hs n, put_erase hs hf] at this
        by_cases hz : 0 < numFree (collect (null m n))
        · rw [if_pos hz]
          obtain ⟨v0, e0⟩ := hval (null m n)
          obtain ⟨v1, e1⟩ := hval (leave (null m n) (S.fit (null m n)))
          have : nullFit S d (null m n) = .ok (leave (null m n) (S.fit (null m n)), max v1 v0) := by
            unfold nullFit refit
            rw [e0, if_pos hts]
            simp only [Res.bind_ok]
            rw [e1]; rfl
          rw [this]
          simp only [Res.bind_ok]
          rw [hback _ (leave_variant _ _)]
          exact ⟨_, rfl⟩
        · rw [if_neg hz, hback _ (Variant.refl _)]
          exact ⟨_, rfl⟩
      · rw [if_neg hp]; exact ⟨st, rfl⟩
  have hloop : ∀ ns, (∀ n ∈ ns, n ∈ StdMap.keys m) → ∀ st : St κ D, st.mod = m →
      ∃ st', tsLoop S lv (freeValues m) ns st = .ok st' ∧ st'.mod = m := by
    intro ns
    induction ns with
    | nil => intro _ st hm; exact ⟨st, rfl, hm⟩
    | cons n ns ih =>
      intro hns st hm
      obtain ⟨st1, h1⟩ := hstep n (hns n List.mem_cons_self) st hm
      obtain ⟨st2, h2, h3⟩ := ih (fun k hk => hns k (List.mem_cons_of_mem _ hk)) st1
        (tsStep_ok hs hb hm h1).1
      exact ⟨st2, by unfold tsLoop; rw [h1]; exact h2, h3⟩
  obtain ⟨st, h1, h2⟩ := hloop (StdMap.keys m) (fun _ h => h) ⟨m, [], []⟩ rfl
  refine ⟨{ st with mod := m }, ?_⟩
  unfold computeTsValues
  rw [hlv]
  simp only [Res.bind_ok]
  rw [h1]
  simp only [Res.bind_ok]
  rw [h2, setFree_restore (Variant.refl m) hb]
  rfl

end Verif.TsVal
