import Mathlib.Order.Bounds.Basic
import Mathlib.Tactic.NormNum
import Verif.TsVal.Lemmas
/-
Properties of the test statistics of gtlike.
-/
set_option linter.unusedSectionVars false
set_option linter.unusedVariables false
set_option linter.unusedSimpArgs false
namespace Verif.TsVal

open Verif Spec

variable {κ D : Type} [LinearOrder κ]

/-- The entry of a source in terms of the functions of the model. -/
def Entry (S : Setup κ D) (m : Mod κ D) (lv : ℝ) (n : κ) (t : ℝ) : Prop :=
  ∃ d, Tested m n d ∧
    ((0 < numFree (collect (null m n)) ∧ ∃ m' v, nullFit S d (null m n) = .ok (m', v) ∧
        t = 2 * (lv - v)) ∨
     (¬ 0 < numFree (collect (null m n)) ∧ ∃ v, S.value (null m n) = some v ∧
        t = 2 * (lv - v)))

theorem nullFit_variant {S : Setup κ D} {d : D} {m m' : Mod κ D} {v : ℝ}
    (h : nullFit S d m = .ok (m', v)) : Variant m m' := by
  unfold nullFit at h
  obtain ⟨v0, _, h⟩ := Res.bind_eq_ok.1 h
  obtain ⟨m1, h1, h⟩ := Res.bind_eq_ok.1 h
  obtain ⟨v1, _, h⟩ := Res.bind_eq_ok.1 h
  cases h
  unfold refit at h1
  split at h1
  · cases h1; exact leave_variant _ _
  · exact renorm_variant h1

theorem value_ok {S : Setup κ D} {m : Mod κ D} {v : ℝ} : value S m = .ok v ↔ S.value m = some v := by
  unfold value; cases S.value m <;> simp

/-- One round of the loop. -/
theorem tsStep_ok {S : Setup κ D} {lv : ℝ} {m : Mod κ D} (hs : StdMap.Sorted m)
    (hb : InBounds m) {n : κ} {st st' : St κ D} (hm : st.mod = m)
    (h : tsStep S lv (freeValues m) n st = .ok st') :
    st'.mod = m ∧
    ((st' = st ∧ ¬ ∃ d, Tested m n d) ∨
     (∃ d, Tested m n d ∧
       st'.dist = (if S.binned then st.dist else StdMap.put st.dist n (S.sep d S.centre))) ∧
     ((∃ t, Entry S m lv n t ∧ st'.ts = StdMap.put st.ts n t) ∨
      (st'.ts = st.ts ∧ S.value (null m n) = none))) := by
  subst hm
  unfold tsStep at h
  cases hf : StdMap.find st.mod n with
  | none => rw [hf] at h; cases h
  | some s =>
    rw [hf] at h
    simp only at h
    have huniq : ∀ s', (n, s') ∈ st.mod → s' = s := by
      intro s' hs'
      have := StdMap.find_of_mem hs hs'
      rw [hf] at this; cases this; rfl
    have hno : (∀ d, s.kind ≠ .point d) → ¬ ∃ d, Tested st.mod n d := by
      rintro hk ⟨d, s', h1, h2, _⟩
      rw [huniq s' h1] at h2
      exact hk d h2
    cases hk : s.kind with
    | diffuse =>
      rw [hk] at h; cases h
      exact ⟨rfl, .inl ⟨rfl, hno (fun d hd => by rw [hk] at hd; cases hd)⟩⟩
    | composite =>
      rw [hk] at h; cases h
      exact ⟨rfl, .inl ⟨rfl, hno (fun d hd => by rw [hk] at hd; cases hd)⟩⟩
    | point d =>
      rw [hk] at h
      simp only at h
      by_cases hn : 0 < numFree s.pars
      · rw [if_pos hn] at h
        have ht : Tested st.mod n d := ⟨s, StdMap.find_some_mem hf, hk, numFree_pos.1 hn⟩
        unfold pointStep at h
        simp only [erase_eq_null hs n] at h
        have hback : ∀ m', Variant (null st.mod n) m' →
            setFree (StdMap.put m' n s) (freeValues st.mod) = .ok st.mod := by
          intro m' hv
          apply setFree_restore _ hb
          have := put_variant hv n s
          rwa [← erase_eq_null hs n, put_erase hs hf] at this
        by_cases hz : 0 < numFree (collect (null st.mod n))
        · rw [if_pos hz] at h
          obtain ⟨r, h1, h⟩ := Res.bind_eq_ok.1 h
          obtain ⟨m', v⟩ := r
          rw [hback m' (nullFit_variant h1)] at h
          cases h
          exact ⟨rfl, .inr ⟨⟨d, ht, rfl⟩,
            .inl ⟨_, ⟨d, ht, .inl ⟨hz, m', v, h1, rfl⟩⟩, rfl⟩⟩⟩
        · rw [if_neg hz] at h
          rw [hback _ (Variant.refl _)] at h
          cases h
          refine ⟨rfl, .inr ⟨⟨d, ht, rfl⟩, ?_⟩⟩
          cases hv : S.value (null st.mod n) with
          | none =>
            right
            refine ⟨?_, rfl⟩
            simp only [nullFixed, hv]
          | some v =>
            left
            refine ⟨2 * (lv - v), ⟨d, ht, .inr ⟨hz, v, hv, rfl⟩⟩, ?_⟩
            simp only [nullFixed, hv]
      · rw [if_neg hn] at h
        cases h
        refine ⟨rfl, .inl ⟨rfl, ?_⟩⟩
        rintro ⟨d', s', h1, h2, h3⟩
        rw [huniq s' h1] at h3
        exact hn (numFree_pos.2 h3)

/-- What holds of the maps after the loop over some of the sources. -/
structure Done (S : Setup κ D) (m : Mod κ D) (lv : ℝ) (ns : List κ) (st : St κ D) : Prop where
  mod : st.mod = m
  sts : StdMap.Sorted st.ts
  sdist : StdMap.Sorted st.dist
  entry : ∀ n t, StdMap.find st.ts n = some t → n ∈ ns ∧ Entry S m lv n t
  missing : ∀ n ∈ ns, StdMap.find st.ts n = none →
    (∃ d, Tested m n d) → S.value (null m n) = none
  dist : ∀ n x, StdMap.find st.dist n = some x →
    S.binned = false ∧ ∃ d, Tested m n d ∧ x = S.sep d S.centre
  dist' : ∀ n ∈ ns, S.binned = false → (∃ d, Tested m n d) → StdMap.find st.dist n ≠ none

theorem tsStep_done {S : Setup κ D} {lv : ℝ} {m : Mod κ D} (hs : StdMap.Sorted m)
    (hb : InBounds m) {n : κ} {ns : List κ} {st st' : St κ D} (hd : Done S m lv ns st)
    (h : tsStep S lv (freeValues m) n st = .ok st') : Done S m lv (ns ++ [n]) st' := by
  obtain ⟨hm, hc⟩ := tsStep_ok hs hb hd.mod h
  rcases hc with ⟨rfl, hno⟩ | ⟨⟨d, ht, hdist⟩, hts⟩
  · refine ⟨hd.mod, hd.sts, hd.sdist, ?_, ?_, hd.dist, ?_⟩
    · intro k t hk
      exact ⟨List.mem_append_left _ (hd.entry k t hk).1, (hd.entry k t hk).2⟩
    · intro k hk hn ht
      rcases List.mem_append.1 hk with hk | hk
      · exact hd.missing k hk hn ht
      · rw [List.mem_singleton] at hk; subst hk; exact absurd ht hno
    · intro k hk hbn ht
      rcases List.mem_append.1 hk with hk | hk
      · exact hd.dist' k hk hbn ht
      · rw [List.mem_singleton] at hk; subst hk; exact absurd ht hno
  · have hD : StdMap.Sorted st'.dist ∧ (∀ k x, StdMap.find st'.dist k = some x →
          S.binned = false ∧ ∃ d, Tested m k d ∧ x = S.sep d S.centre) ∧
        (∀ k ∈ ns ++ [n], S.binned = false → (∃ d, Tested m k d) →
          StdMap.find st'.dist k ≠ none) := by
      rw [hdist]
      cases hbn : S.binned with
      | true =>
        simp only [if_true]
        refine ⟨hd.sdist, ?_, ?_⟩
        · intro k x hk
          have := (hd.dist k x hk).1
          rw [hbn] at this; cases this
        · intro k _ hbn'; cases hbn'
      | false =>
        simp only [Bool.false_eq_true, if_false]
        refine ⟨StdMap.sorted_put hd.sdist _ _, ?_, ?_⟩
        · intro k x hk
          rw [StdMap.find_put hd.sdist] at hk
          by_cases e : k = n
          · subst e
            rw [if_pos rfl] at hk; cases hk
            exact ⟨trivial, d, ht, rfl⟩
          · rw [if_neg e] at hk
            exact ⟨trivial, (hd.dist k x hk).2⟩
        · intro k hk _ htk
          rw [StdMap.find_put hd.sdist]
          by_cases e : k = n
          · rw [if_pos e]; simp
          · rw [if_neg e]
            rcases List.mem_append.1 hk with hk | hk
            · exact hd.dist' k hk hbn htk
            · exact absurd (List.mem_singleton.1 hk) e
    rcases hts with ⟨t, he, hts⟩ | ⟨hts, hv⟩
    · refine ⟨hm, by rw [hts]; exact StdMap.sorted_put hd.sts _ _, hD.1, ?_, ?_, hD.2.1, hD.2.2⟩
      · intro k u hk
        rw [hts, StdMap.find_put hd.sts] at hk
        by_cases e : k = n
        · subst e
          rw [if_pos rfl] at hk; cases hk
          exact ⟨List.mem_append_right _ (List.mem_singleton.2 rfl), he⟩
        · rw [if_neg e] at hk
          exact ⟨List.mem_append_left _ (hd.entry k u hk).1, (hd.entry k u hk).2⟩
      · intro k hk hn htk
        rw [hts, StdMap.find_put hd.sts] at hn
        by_cases e : k = n
        · rw [if_pos e] at hn; cases hn
        · rw [if_neg e] at hn
          rcases List.mem_append.1 hk with hk | hk
          · exact hd.missing k hk hn htk
          · exact absurd (List.mem_singleton.1 hk) e
    · refine ⟨hm, by rw [hts]; exact hd.sts, hD.1, ?_, ?_, hD.2.1, hD.2.2⟩
      · intro k u hk
        rw [hts] at hk
        exact ⟨List.mem_append_left _ (hd.entry k u hk).1, (hd.entry k u hk).2⟩
      · intro k hk hn htk
        rw [hts] at hn
        rcases List.mem_append.1 hk with hk | hk
        · exact hd.missing k hk hn htk
        · rw [List.mem_singleton] at hk; subst hk; exact hv

theorem tsLoop_done {S : Setup κ D} {lv : ℝ} {m : Mod κ D} (hs : StdMap.Sorted m)
    (hb : InBounds m) {ns ns' : List κ} {st st' : St κ D} (hd : Done S m lv ns' st)
    (h : tsLoop S lv (freeValues m) ns st = .ok st') : Done S m lv (ns' ++ ns) st' := by
  induction ns generalizing st ns' with
  | nil => cases h; rwa [List.append_nil]
  | cons n ns ih =>
    unfold tsLoop at h
    obtain ⟨st1, h1, h2⟩ := Res.bind_eq_ok.1 h
    have := ih (tsStep_done hs hb hd h1) h2
    rwa [List.append_assoc] at this

theorem compute_done {S : Setup κ D} {m : Mod κ D} (ho : Ordered m) (hb : InBounds m)
    {r : St κ D} (h : computeTsValues S m = .ok r) :
    ∃ lv, S.value m = some lv ∧ Done S m lv (StdMap.keys m) r := by
  have hs := ordered_iff.1 ho
  unfold computeTsValues at h
  obtain ⟨lv, h1, h⟩ := Res.bind_eq_ok.1 h
  obtain ⟨st, h2, h⟩ := Res.bind_eq_ok.1 h
  obtain ⟨back, h3, h⟩ := Res.bind_eq_ok.1 h
  refine ⟨lv, value_ok.1 h1, ?_⟩
  have h0 : Done S m lv [] ⟨m, [], []⟩ :=
    ⟨rfl, StdMap.sorted_nil, StdMap.sorted_nil, (fun n t hn => by cases hn),
     (fun n hn => by cases hn), (fun n t hn => by cases hn), (fun n hn => by cases hn)⟩
  have hd := tsLoop_done hs hb h0 h2
  rw [List.nil_append] at hd
  rw [hd.mod, setFree_restore (Variant.refl m) hb] at h3
  cases h3; cases h
  exact ⟨rfl, hd.sts, hd.sdist, hd.entry, hd.missing, hd.dist, hd.dist'⟩

/-! ### the theorems -/

/-- C107, restoring: computing the test statistics leaves the fitted source model as it
was, whatever the optimizer did to the models without a source. -/
theorem C107_restores (S : Setup κ D) (m : Mod κ D) (ho : Ordered m) (hb : InBounds m)
    (r : St κ D) (h : computeTsValues S m = .ok r) : r.mod = m := by
  obtain ⟨_, _, hd⟩ := compute_done ho hb h
  exact hd.mod

/-- C107, meaning: the test statistic reported for a source is twice the difference between
the log-likelihood of the fitted model and that of a model without the source in which only
free parameters of the others differ, and which is at least as likely as the one with the
fitted parameters. -/
theorem C107_value (S : Setup κ D) (m : Mod κ D) (ho : Ordered m) (hb : InBounds m)
    (r : St κ D) (h : computeTsValues S m = .ok r) (n : κ) (t : ℝ) (ht : (n, t) ∈ r.ts) :
    (∃ d, Tested m n d) ∧
    ∃ l l0 v, S.value m = some l ∧ S.value (null m n) = some l0 ∧ v ∈ NullValues S m n ∧
      l0 ≤ v ∧ t = 2 * (l - v) := by
  obtain ⟨lv, hlv, hd⟩ := compute_done ho hb h
  obtain ⟨_, d, htd, he⟩ := hd.entry n t (StdMap.find_of_mem hd.sts ht)
  refine ⟨⟨d, htd⟩, ?_⟩
  rcases he with ⟨_, m', v, hf, rfl⟩ | ⟨_, v, hv, rfl⟩
  · have hvar := nullFit_variant hf
    unfold nullFit at hf
    obtain ⟨v0, h0, hf⟩ := Res.bind_eq_ok.1 hf
    obtain ⟨m1, h1, hf⟩ := Res.bind_eq_ok.1 hf
    obtain ⟨v1, h2, hf⟩ := Res.bind_eq_ok.1 hf
    cases hf
    rw [value_ok] at h0 h2
    refine ⟨lv, v0, max v1 v0, hlv, h0, ?_, le_max_right _ _, rfl⟩
    rcases le_total v1 v0 with hle | hle
    · rw [max_eq_right hle]; exact ⟨_, Variant.refl _, h0⟩
    · rw [max_eq_left hle]; exact ⟨_, hvar, h2⟩
  · exact ⟨lv, v, v, hlv, hv, ⟨_, Variant.refl _, hv⟩, le_refl _, rfl⟩

/-- C107, bounds: the test statistic reported is never below the one of the best null
hypothesis and never above the one of the null hypothesis with the fitted parameters. -/
theorem C107_bounds (S : Setup κ D) (m : Mod κ D) (ho : Ordered m) (hb : InBounds m)
    (r : St κ D) (h : computeTsValues S m = .ok r) (n : κ) (t : ℝ) (ht : (n, t) ∈ r.ts)
    (l l0 b : ℝ) (hl : S.value m = some l) (hl0 : S.value (null m n) = some l0)
    (hB : ∀ v ∈ NullValues S m n, v ≤ b) :
    2 * (l - b) ≤ t ∧ t ≤ 2 * (l - l0) := by
  obtain ⟨_, l', l0', v, e1, e2, e3, e4, e5⟩ := C107_value S m ho hb r h n t ht
  rw [hl] at e1; rw [hl0] at e2
  cases e1; cases e2
  have := hB v e3
  constructor <;> linarith

/-- C107, sources: there is a test statistic for each point source with a free parameter,
exactly one, and for no other source, as long as the log-likelihood can be computed. -/
theorem C107_sources (S : Setup κ D) (m : Mod κ D) (ho : Ordered m) (hb : InBounds m)
    (hv : ∀ m', S.value m' ≠ none) (r : St κ D) (h : computeTsValues S m = .ok r) (n : κ) :
    ((∃ t, (n, t) ∈ r.ts) ↔ ∃ d, Tested m n d) ∧
    ∀ t t', (n, t) ∈ r.ts → (n, t') ∈ r.ts → t = t' := by
  obtain ⟨lv, hlv, hd⟩ := compute_done ho hb h
  refine ⟨⟨?_, ?_⟩, ?_⟩
  · rintro ⟨t, ht⟩
    exact (C107_value S m ho hb r h n t ht).1
  · intro ht
    cases hf : StdMap.find r.ts n with
    | some t => exact ⟨t, StdMap.find_some_mem hf⟩
    | none =>
      obtain ⟨d, s, h1, h2⟩ := ht
      exact absurd (hd.missing n (List.mem_map.2 ⟨_, h1, rfl⟩) hf ⟨d, s, h1, h2⟩) (hv _)
  · intro t t' h1 h2
    have e1 := StdMap.find_of_mem hd.sts h1
    have e2 := StdMap.find_of_mem hd.sts h2
    rw [e1] at e2; cases e2; rfl

/-- C107, distances: the distances from the centre of the region are those of the point
sources with a free parameter; the binned analysis reports none. -/
theorem C107_distances (S : Setup κ D) (m : Mod κ D) (ho : Ordered m) (hb : InBounds m)
    (r : St κ D) (h : computeTsValues S m = .ok r) (n : κ) (x : ℝ) :
    (n, x) ∈ r.dist ↔ S.binned = false ∧ ∃ d, Tested m n d ∧ x = S.sep d S.centre := by
  obtain ⟨lv, hlv, hd⟩ := compute_done ho hb h
  constructor
  · intro hx
    exact hd.dist n x (StdMap.find_of_mem hd.sdist hx)
  · rintro ⟨hbn, d, ht, rfl⟩
    have hk : n ∈ StdMap.keys m := by
      obtain ⟨s, h1, _⟩ := ht
      exact List.mem_map.2 ⟨_, h1, rfl⟩
    cases hf : StdMap.find r.dist n with
    | none => exact absurd hf (hd.dist' n hk hbn ⟨d, ht⟩)
    | some y =>
      obtain ⟨_, d', ht', e⟩ := hd.dist n y hf
      have : d' = d := by
        obtain ⟨s, h1, h2, _⟩ := ht
        obtain ⟨s', h1', h2', _⟩ := ht'
        have e1 := StdMap.find_of_mem (ordered_iff.1 ho) h1
        have e2 := StdMap.find_of_mem (ordered_iff.1 ho) h1'
        rw [e1] at e2; cases e2
        rw [h2] at h2'; cases h2'; rfl
      subst this
      rw [← e]
      exact StdMap.find_some_mem hf

end Verif.TsVal
