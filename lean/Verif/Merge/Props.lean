import Verif.Merge.Lemmas
import Mathlib.Tactic.NormNum
import Mathlib.Tactic.Linarith
import Mathlib.Tactic.Ring
/-
C116: merging sources into a composite source and splitting it again.
-/
set_option linter.unusedSectionVars false
set_option linter.unusedSimpArgs false
set_option linter.unusedVariables false

namespace Verif.Merge
open Verif.StdMap Spec

variable {ν : Type} [LinearOrder ν]

/-- Merging, with what happens to the maps. -/
theorem merge_ok {st : St ν} (hr : Right st.srcs st.maps st.binned) {c : ν} {ns : List ν}
    (f : Bool) (hnd : ns.Nodup) (hin : ∀ n ∈ ns, n ∈ keys st.srcs)
    (hc : c ∈ ns ∨ c ∉ keys st.srcs)
    (hm : st.binned = true → c ∈ ns ∨ find st.maps c = none) :
    ∃ st' parts cache, merge st c ns f = (st', .ok ()) ∧ st'.binned = st.binned ∧
      Right st'.srcs st'.maps st'.binned ∧
      find st'.srcs c = some (.comp f parts cache) ∧
      (∀ n, find parts n = if n ∈ ns then find st.srcs n else none) ∧
      (∀ n, n ≠ c → find st'.srcs n = if n ∈ ns then none else find st.srcs n) ∧
      (∀ n, n ≠ c → find st'.maps n =
        if st.binned = true ∧ n ∈ ns then none else find st.maps n) := by
  obtain ⟨st1, parts, cache, h1, hb, i1, i2, i3, i4, f1, f2, f3, f4⟩ :=
    stealAll_ok ns st [] [] hr.sortedSrcs hr.sortedMaps sorted_nil sorted_nil hnd
      (fun n hn => mem_keys_iff.1 (hin n hn))
      (fun hb n hn => by
        obtain ⟨s, hs⟩ := mem_keys_iff.1 (hin n hn)
        exact ⟨_, hr.map hb n s hs⟩)
      (fun n _ => ⟨by simp [keys], by simp [keys]⟩)
  have f3' : ∀ x, find parts x = if x ∈ ns then find st.srcs x else none := f3
  have hr1 : Right st1.srcs st1.maps st1.binned := by
    refine ⟨i1, i2, ?_, ?_⟩
    · intro n s hs
      rw [f1] at hs
      by_cases hn : n ∈ ns
      · rw [if_pos hn] at hs; cases hs
      · rw [if_neg hn] at hs; rw [hb]; exact hr.whole n s hs
    · intro hbt n s hs
      rw [f1] at hs
      rw [hb] at hbt
      by_cases hn : n ∈ ns
      · rw [if_pos hn] at hs; cases hs
      · rw [if_neg hn] at hs
        rw [f2, if_neg (by simp [hn])]; exact hr.map hbt n s hs
  have hw : Whole st1.binned (Src.comp f parts (if st.binned = true then some cache else none)) := by
    rw [hb]
    refine Whole.comp f parts _ i3 (fun h => by simp [h]) (fun h => ?_) ?_
    · refine ⟨cache, by simp [h], i4, fun n => ?_⟩
      rw [f4, f3']
      by_cases hn : n ∈ ns
      · rw [if_pos ⟨h, hn⟩, if_pos hn]
        obtain ⟨s, hs⟩ := mem_keys_iff.1 (hin n hn)
        rw [hr.map h n s hs, hs]; rfl
      · rw [if_neg (by simp [hn]), if_neg hn]; rfl
    · intro n s hs
      rw [f3'] at hs
      by_cases hn : n ∈ ns
      · rw [if_pos hn] at hs; exact hr.whole n s hs
      · rw [if_neg hn] at hs; cases hs
  have hck : c ∉ keys st1.srcs := by
    intro hk
    obtain ⟨s, hs⟩ := mem_keys_iff.1 hk
    rw [f1] at hs
    by_cases hn : c ∈ ns
    · rw [if_pos hn] at hs; cases hs
    · rw [if_neg hn] at hs
      exact (hc.resolve_left hn) (mem_keys_of_find hs)
  obtain ⟨st2, g1, g2, g3, g4, g5⟩ := addSource_ok hr1 hw hck (m := none)
    (fun _ h => by cases h)
    (fun hbt _ => by
      rw [hb] at hbt
      rw [f2]
      by_cases hn : c ∈ ns
      · rw [if_pos ⟨hbt, hn⟩]
      · rw [if_neg (by simp [hn])]; exact (hm hbt).resolve_left hn)
  refine ⟨st2, parts, _, ?_, by rw [g2, hb], g3, by rw [g4, if_pos rfl], f3', ?_, ?_⟩
  · unfold merge
    rw [h1]
    simp only
    exact g1
  · intro n hn
    rw [g4, if_neg hn, f1]
  · intro n hn
    rw [g5 n hn, f2]

/-- C116 (partial).  Merging distinct sources of a model under a name that is not in use otherwise,
and for which no source map is left over: the call succeeds, the named sources are now exactly the
parts of the composite source, all others are untouched, and every source, the composite one
included, has its own source map. -/
theorem C116_merge_partial {st : St ν} (hr : Right st.srcs st.maps st.binned) {c : ν} {ns : List ν}
    (f : Bool) (hnd : ns.Nodup) (hin : ∀ n ∈ ns, n ∈ keys st.srcs)
    (hc : c ∈ ns ∨ c ∉ keys st.srcs)
    (hm : st.binned = true → c ∈ ns ∨ find st.maps c = none) :
    ∃ st' parts cache, merge st c ns f = (st', .ok ()) ∧
      Right st'.srcs st'.maps st.binned ∧
      find st'.srcs c = some (.comp f parts cache) ∧
      (∀ n, find parts n = if n ∈ ns then find st.srcs n else none) ∧
      (∀ n, n ≠ c → find st'.srcs n = if n ∈ ns then none else find st.srcs n) := by
  obtain ⟨st', parts, cache, h1, hb, h2, h3, h4, h5, _⟩ := merge_ok hr f hnd hin hc hm
  exact ⟨st', parts, cache, h1, hb ▸ h2, h3, h4, h5⟩

/-- C116 (partial).  Splitting a composite source none of whose parts has a name in use, or, if its
spectrum is fixed, a left-over source map: the call succeeds, the parts are sources of the model
again, all others are untouched, and every source has its own source map. -/
theorem C116_split_partial {st : St ν} (hr : Right st.srcs st.maps st.binned) {c : ν} {f : Bool}
    {parts : List (ν × Src ν)} {cache : Option (List (ν × List Nat))}
    (hc : find st.srcs c = some (.comp f parts cache))
    (hn : ∀ n ∈ keys parts, n = c ∨ n ∉ keys st.srcs)
    (hm : st.binned = true → ∀ n s, find parts n = some s → fixed s = true →
      find st.maps n = none) :
    ∃ st', split st c = (st', .ok ()) ∧ Right st'.srcs st'.maps st.binned ∧
      (∀ n s, find parts n = some s → find st'.srcs n = some s) ∧
      (∀ n, n ∉ keys parts → find st'.srcs n = if n = c then none else find st.srcs n) := by
  have hw := hr.whole c _ hc
  have hr1 : Right (erase st.srcs c) st.maps st.binned := by
    refine ⟨sorted_erase hr.sortedSrcs c, hr.sortedMaps, ?_, ?_⟩
    · intro n s hs
      rw [find_erase hr.sortedSrcs] at hs
      by_cases h : n = c
      · rw [if_pos h] at hs; cases hs
      · rw [if_neg h] at hs; exact hr.whole n s hs
    · intro hb n s hs
      rw [find_erase hr.sortedSrcs] at hs
      by_cases h : n = c
      · rw [if_pos h] at hs; cases hs
      · rw [if_neg h] at hs; exact hr.map hb n s hs
  cases hw with
  | comp _ _ _ sorted plain maps whole =>
    obtain ⟨st', h1, h2, h3, h4, _⟩ := giveAll_ok cache parts
      { st with srcs := erase st.srcs c } hr1 sorted plain
      (fun hb => by
        obtain ⟨ch, e, _, hch⟩ := maps hb
        exact ⟨ch, e, fun n s hs => by rw [hch, hs]; rfl⟩)
      (fun n s hs => by
        refine ⟨whole n s hs, ?_, fun hb hf => hm hb n s hs hf⟩
        intro hk
        obtain ⟨t, ht⟩ := mem_keys_iff.1 hk
        simp only at ht
        rw [find_erase hr.sortedSrcs] at ht
        rcases hn n (mem_keys_of_find hs) with h | h
        · rw [if_pos h] at ht; cases ht
        · by_cases h' : n = c
          · rw [if_pos h'] at ht; cases ht
          · rw [if_neg h'] at ht; exact h (mem_keys_of_find ht))
    refine ⟨st', ?_, ?_, ?_, ?_⟩
    · unfold split; rw [hc]; exact h1
    · have : st'.binned = st.binned := h2
      rw [← this]; exact h3
    · intro n s hs
      rw [h4, hs]
    · intro n hn
      rw [h4, find_none.2 hn]
      simp only
      rw [find_erase hr.sortedSrcs]

/-- C116 (partial).  Merging and splitting again is the identity on the sources, and every source
has its map: for distinct sources, a name for the composite source not in use and without left-over
map, or one of the sources that is not fixed. -/
theorem C116_roundtrip_partial {st : St ν} (hr : Right st.srcs st.maps st.binned) {c : ν}
    {ns : List ν} (f : Bool) (hnd : ns.Nodup) (hin : ∀ n ∈ ns, n ∈ keys st.srcs)
    (hc : c ∈ ns ∨ c ∉ keys st.srcs)
    (hm : st.binned = true → c ∈ ns ∨ find st.maps c = none)
    (hf : st.binned = true → c ∈ ns → ∀ s, find st.srcs c = some s → fixed s = false) :
    ∃ st' st'', merge st c ns f = (st', .ok ()) ∧ split st' c = (st'', .ok ()) ∧
      st''.srcs = st.srcs ∧ Right st''.srcs st''.maps st.binned := by
  obtain ⟨st', parts, cache, h1, hb, h2, h3, h4, h5, h6⟩ := merge_ok hr f hnd hin hc hm
  have hmem : ∀ n s, find parts n = some s → n ∈ ns ∧ find st.srcs n = some s := by
    intro n s hs
    rw [h4] at hs
    by_cases hn : n ∈ ns
    · rw [if_pos hn] at hs; exact ⟨hn, hs⟩
    · rw [if_neg hn] at hs; cases hs
  obtain ⟨st'', g1, g2, g3, g4⟩ := C116_split_partial h2 h3
    (fun n hn => by
      obtain ⟨s, hs⟩ := mem_keys_iff.1 hn
      by_cases hnc : n = c
      · exact Or.inl hnc
      · refine Or.inr fun hk => ?_
        obtain ⟨t, ht⟩ := mem_keys_iff.1 hk
        rw [h5 n hnc, if_pos (hmem n s hs).1] at ht
        cases ht)
    (fun hbt n s hs hfx => by
      rw [hb] at hbt
      obtain ⟨hn, hsn⟩ := hmem n s hs
      by_cases hnc : n = c
      · subst hnc
        rw [hf hbt hn s hsn] at hfx; cases hfx
      · rw [h6 n hnc, if_pos ⟨hbt, hn⟩])
  refine ⟨st', st'', h1, g1, ?_, hb ▸ g2⟩
  apply StdMap.ext g2.sortedSrcs hr.sortedSrcs
  intro n
  by_cases hn : n ∈ ns
  · obtain ⟨s, hs⟩ := mem_keys_iff.1 (hin n hn)
    rw [hs]
    exact g3 n s (by rw [h4, if_pos hn, hs])
  · have hk : n ∉ keys parts := fun hk => by
      obtain ⟨s, hs⟩ := mem_keys_iff.1 hk
      exact hn (hmem n s hs).1
    rw [g4 n hk]
    by_cases hnc : n = c
    · rw [if_pos hnc, hnc]
      exact (find_none.2 (hc.resolve_left (hnc ▸ hn))).symm
    · rw [if_neg hnc, h5 n hnc, if_neg hn]

/-- C116.  However often sources are merged and composite sources are split, as long as the calls
succeed: the model has the same elementary sources as before, each as often as before. -/
theorem C116_leaves (ops : List (Op ν)) : ∀ {st st' : St ν}, run st ops = some st' →
    (leavesOf st'.srcs).Perm (leavesOf st.srcs) := by
  induction ops with
  | nil => intro st st' h; rw [run] at h; cases h; exact List.Perm.refl _
  | cons op ops ih =>
    intro st st' h
    rw [run] at h
    rcases hs : step st op with ⟨st1, r⟩
    rw [hs] at h
    cases r with
    | throws => cases h
    | ub => cases h
    | ok u =>
      refine (ih h).trans ?_
      cases op with
      | merge c ns f =>
        rw [step, merge] at hs
        rcases ht : stealAll ns st [] [] with ⟨st2, r2⟩
        rw [ht] at hs
        cases r2 with
        | throws => cases hs
        | ub => cases hs
        | ok pc =>
          obtain ⟨parts, cache⟩ := pc
          simp only at hs
          have h1 := addSource_leaves hs
          have h2 := stealAll_leaves ns st [] [] ht
          rw [leaves] at h1
          refine h1.trans (List.perm_append_comm.trans ?_)
          simpa [leavesOf] using h2
      | split c =>
        rw [step, split] at hs
        cases hf : find st.srcs c with
        | none => rw [hf] at hs; cases hs
        | some s =>
          rw [hf] at hs
          cases s with
          | leaf id f => cases hs
          | comp f parts cache =>
            simp only at hs
            have h1 := giveAll_leaves cache parts _ hs
            have h2 := leavesOf_erase hf
            rw [leaves] at h2
            exact h1.trans h2.symm

/-! ### What goes wrong -/

/-- Stealing after stealing. -/
theorem stealAll_append (pre post : List ν) : ∀ (st : St ν) (p : List (ν × Src ν))
    (c : List (ν × List Nat)) {st' : St ν} {p' : List (ν × Src ν)} {c' : List (ν × List Nat)},
    stealAll pre st p c = (st', .ok (p', c')) →
    stealAll (pre ++ post) st p c = stealAll post st' p' c' := by
  induction pre with
  | nil => intro st p c st' p' c' h; rw [stealAll] at h; cases h; rfl
  | cons n ns ih =>
    intro st p c st' p' c' h
    rw [List.cons_append]
    rw [stealAll] at h ⊢
    cases hf : find st.srcs n with
    | none => rw [hf] at h; cases h
    | some s =>
      rw [hf] at h
      simp only at h ⊢
      by_cases hb : st.binned = true
      · rw [if_pos hb] at h ⊢
        cases hm : find st.maps n with
        | none => rw [hm] at h; cases h
        | some m =>
          rw [hm] at h
          simp only at h ⊢
          by_cases hk : n ∈ keys p ∨ n ∈ keys c
          · rw [if_pos hk] at h; cases h
          · rw [if_neg hk] at h ⊢
            exact ih _ _ _ h
      · rw [if_neg hb] at h ⊢
        by_cases hk : n ∈ keys p
        · rw [if_pos hk] at h; cases h
        · rw [if_neg hk] at h ⊢
          exact ih _ _ _ h

/-- C116 (violation).  Merging under the name of another source of the model: the call throws, and
all the sources to be merged are gone from the model. -/
theorem C116_taken_violates {st : St ν} (hr : Right st.srcs st.maps st.binned) {c : ν} {ns : List ν}
    (f : Bool) (hnd : ns.Nodup) (hin : ∀ n ∈ ns, n ∈ keys st.srcs)
    (hc : c ∉ ns) (hk : c ∈ keys st.srcs) :
    ∃ st', merge st c ns f = (st', .throws) ∧
      ∀ n, find st'.srcs n = if n ∈ ns then none else find st.srcs n := by
  obtain ⟨st1, parts, cache, h1, hb, i1, i2, i3, i4, f1, f2, f3, f4⟩ :=
    stealAll_ok ns st [] [] hr.sortedSrcs hr.sortedMaps sorted_nil sorted_nil hnd
      (fun n hn => mem_keys_iff.1 (hin n hn))
      (fun hb n hn => by
        obtain ⟨s, hs⟩ := mem_keys_iff.1 (hin n hn)
        exact ⟨_, hr.map hb n s hs⟩)
      (fun n _ => ⟨by simp [keys], by simp [keys]⟩)
  refine ⟨st1, ?_, f1⟩
  unfold merge
  rw [h1]
  simp only
  unfold addSource
  rw [if_pos]
  obtain ⟨s, hs⟩ := mem_keys_iff.1 hk
  exact mem_keys_of_find (a := s) (by rw [f1, if_neg hc, hs])

/-- C116 (violation).  Merging sources one of which is not in the model, or is named twice: the call
throws, and those named before it are gone from the model. -/
theorem C116_missing_violates {st : St ν} (hr : Right st.srcs st.maps st.binned) (c : ν)
    {pre : List ν} {m : ν} (post : List ν) (f : Bool) (hnd : pre.Nodup)
    (hin : ∀ n ∈ pre, n ∈ keys st.srcs) (hm : m ∈ pre ∨ m ∉ keys st.srcs) :
    ∃ st', merge st c (pre ++ m :: post) f = (st', .throws) ∧
      ∀ n, find st'.srcs n = if n ∈ pre then none else find st.srcs n := by
  obtain ⟨st1, parts, cache, h1, hb, i1, i2, i3, i4, f1, f2, f3, f4⟩ :=
    stealAll_ok pre st [] [] hr.sortedSrcs hr.sortedMaps sorted_nil sorted_nil hnd
      (fun n hn => mem_keys_iff.1 (hin n hn))
      (fun hb n hn => by
        obtain ⟨s, hs⟩ := mem_keys_iff.1 (hin n hn)
        exact ⟨_, hr.map hb n s hs⟩)
      (fun n _ => ⟨by simp [keys], by simp [keys]⟩)
  refine ⟨st1, ?_, f1⟩
  unfold merge
  rw [stealAll_append pre (m :: post) st [] [] h1, stealAll, f1]
  by_cases hmp : m ∈ pre
  · rw [if_pos hmp]
  · rw [if_neg hmp, find_none.2 (hm.resolve_left hmp)]

/-- C116 (violation).  Splitting a source that is not composite: the call throws, and the source is
gone from the model. -/
theorem C116_split_leaf_violates {st : St ν} (hr : Right st.srcs st.maps st.binned) {c : ν}
    {id : Nat} {f : Bool} (hc : find st.srcs c = some (.leaf id f)) :
    ∃ st', split st c = (st', .throws) ∧
      ∀ n, find st'.srcs n = if n = c then none else find st.srcs n := by
  refine ⟨{ st with srcs := erase st.srcs c }, ?_, fun n => ?_⟩
  · unfold split; rw [hc]
  · simp only; rw [find_erase hr.sortedSrcs]

/-- C116 (violation).  Splitting a composite source the first part of which has the name of another
source of the model: the call throws, and the composite source with all its parts is gone. -/
theorem C116_split_taken_violates {st : St ν} (hr : Right st.srcs st.maps st.binned) {c n : ν}
    {f : Bool} {s : Src ν} {ps : List (ν × Src ν)} {cache : Option (List (ν × List Nat))}
    (hc : find st.srcs c = some (.comp f ((n, s) :: ps) cache)) (hn : n ≠ c)
    (hk : n ∈ keys st.srcs) :
    ∃ st', split st c = (st', .throws) ∧
      ∀ x, find st'.srcs x = if x = c then none else find st.srcs x := by
  have hw := hr.whole c _ hc
  refine ⟨{ st with srcs := erase st.srcs c }, ?_, fun n => ?_⟩
  · unfold split
    rw [hc]
    simp only
    have hk' : n ∈ keys (erase st.srcs c) := by
      obtain ⟨t, ht⟩ := mem_keys_iff.1 hk
      exact mem_keys_of_find (a := t) (by rw [find_erase hr.sortedSrcs, if_neg hn, ht])
    have hadd : ∀ m, addSource { st with srcs := erase st.srcs c } n s m =
        ({ st with srcs := erase st.srcs c }, .throws) := by
      intro m; unfold addSource; rw [if_pos hk']
    rw [giveAll.eq_def]
    simp only
    cases hw with
    | comp _ _ _ sorted plain maps whole =>
      cases hb : st.binned with
      | false =>
        rw [plain hb]
        simp only
        rw [← hb, hadd]
      | true =>
        obtain ⟨ch, e, _, hch⟩ := maps hb
        rw [e]
        simp only
        rw [hch n]
        simp only [find, if_true, Option.map]
        rw [← hb, hadd]
  · simp only; rw [find_erase hr.sortedSrcs]

/-- A binned model with two sources. -/
def two (fa fb : Bool) : St Nat where
  srcs := [(1, .leaf 10 fa), (2, .leaf 20 fb)]
  maps := [(1, [10]), (2, [20])]
  binned := true

theorem two_right (fa fb : Bool) : Right (two fa fb).srcs (two fa fb).maps true := by
  refine ⟨by simp [two, Sorted, keys], by simp [two, Sorted, keys], ?_, ?_⟩
  · intro n s h
    simp only [two, find] at h
    split at h
    · cases h; exact Whole.leaf _ _
    · split at h
      · cases h; exact Whole.leaf _ _
      · cases h
  · intro _ n s h
    simp only [two, find] at h ⊢
    split at h
    · rename_i e; cases h; rw [if_pos e]; simp [leaves]
    · rename_i e
      split at h
      · rename_i e'; cases h; rw [if_neg e, if_pos e']; simp [leaves]
      · cases h

/-- C116 (violation).  A composite source that was split leaves its source map behind: another
composite source under the same name gets the map of the first one. -/
theorem C116_stale_violates : ∃ st parts cache,
    run (two false false) [.merge 3 [1] false, .split 3, .merge 3 [2] false] = some st ∧
      find st.srcs 3 = some (.comp false parts cache) ∧ leavesOf parts = [20] ∧
      find st.maps 3 = some [10] := by
  refine ⟨{ srcs := [(1, .leaf 10 false), (3, .comp false [(2, .leaf 20 false)] (some [(2, [20])]))],
            maps := [(1, [10]), (3, [10])], binned := true },
    [(2, .leaf 20 false)], some [(2, [20])], ?_, ?_, ?_, ?_⟩
  · simp [run, step, merge, split, stealAll, giveAll, addSource, load, two, find, put, erase, keys,
      fixed, mapOf, mapParts, fill, fillParts, fillCache]
  · simp [find]
  · simp [leavesOf, leaves]
  · simp [find]

/-- C116 (violation).  A composite source under the name of one of its parts, which is fixed, split
again: the part gets the source map of the composite source. -/
theorem C116_same_name_violates : ∃ st,
    run (two true false) [.merge 1 [1, 2] false, .split 1] = some st ∧
      find st.srcs 1 = some (.leaf 10 true) ∧ find st.maps 1 = some [10, 20] := by
  refine ⟨{ srcs := [(1, .leaf 10 true), (2, .leaf 20 false)],
            maps := [(1, [10, 20]), (2, [20])], binned := true }, ?_, ?_, ?_⟩
  · simp [run, step, merge, split, stealAll, giveAll, addSource, load, two, find, put, erase, keys,
      fixed, mapOf, mapParts, fill, fillParts, fillCache]
  · simp [find]
  · simp [find]

/-- Non-vacuity of the theorems on merging and splitting. -/
example : ∃ st' st'', merge (two false true) 3 [2, 1] true = (st', .ok ()) ∧
    split st' 3 = (st'', .ok ()) ∧ st''.srcs = (two false true).srcs ∧
    Right st''.srcs st''.maps true :=
  C116_roundtrip_partial (st := two false true) (two_right _ _) true (by simp)
    (by simp [two, keys]) (Or.inr (by simp [two, keys])) (fun _ => Or.inr rfl)
    (fun _ h => by simp at h)

example : ∃ st', merge (two false true) 2 [1] true = (st', .throws) ∧
    ∀ n, find st'.srcs n = if n ∈ [1] then none else find (two false true).srcs n :=
  C116_taken_violates (two_right _ _) true (by simp) (by simp [two, keys]) (by simp)
    (by simp [two, keys])

example : ∃ st', merge (two false true) 3 ([1] ++ 7 :: [2]) true = (st', .throws) ∧
    ∀ n, find st'.srcs n = if n ∈ [1] then none else find (two false true).srcs n :=
  C116_missing_violates (two_right _ _) 3 [2] true (by simp) (by simp [two, keys])
    (Or.inr (by simp [two, keys]))

example : ∃ st', split (two false true) 2 = (st', .throws) ∧
    ∀ n, find st'.srcs n = if n = 2 then none else find (two false true).srcs n :=
  C116_split_leaf_violates (two_right _ _) (id := 20) (f := true) (by simp [two, find])

/-! ### Flux densities -/

theorem kahan_add (a : Accum.Kahan) (h : a.c = 0) (v : ℝ) :
    (a.add v).c = 0 ∧ (a.add v).sum = a.sum + v := by
  constructor <;> simp [Accum.Kahan.add, h]

theorem fluxSum_none (ps : List Part) : ∀ a : Accum.Kahan, a.c = 0 →
    (fluxSum ps a none).1.sum = a.sum + (ps.map Spec.partValue).sum := by
  induction ps with
  | nil => intro a h; simp [fluxSum]
  | cons p ps ih =>
    intro a h
    have hp : partFlux none p = (Spec.partValue p, none) := by cases p <;> rfl
    rw [fluxSum, hp]
    simp only
    rw [ih _ (kahan_add a h _).1, (kahan_add a h _).2, List.map_cons, List.sum_cons]
    ring

theorem fluxSum_filled (r : ℝ) (ps : List (ℝ × ℝ)) : ∀ a : Accum.Kahan, a.c = 0 →
    (fluxSum (ps.map fun x => .point x.1 x.2) a (some (some r))).1.sum =
      a.sum + r * (ps.map Prod.fst).sum := by
  induction ps with
  | nil => intro a h; simp [fluxSum]
  | cons p ps ih =>
    intro a h
    rw [List.map_cons, fluxSum]
    show (fluxSum (ps.map fun x => .point x.1 x.2) (a.add (p.1 * r)) (some (some r))).1.sum = _
    rw [ih _ (kahan_add a h _).1, (kahan_add a h _).2, List.map_cons, List.sum_cons]
    ring

/-- C116 (partial).  Without a cache for responses the flux density of a composite source is the
value of its spectrum times the sum of the flux densities of its parts. -/
theorem C116_flux_partial (spec : ℝ) (parts : List Part) :
    (fluxDensity spec parts none).1 = spec * (parts.map Spec.partValue).sum := by
  show (fluxSum parts Accum.Kahan.init none).1.sum * spec = _
  rw [fluxSum_none parts _ rfl]
  simp [Accum.Kahan.init, mul_comm]

/-- C116 (violation).  With the cache for responses, as the unbinned likelihood gives it: for a
composite source of point sources all parts are given the response of the first one. -/
theorem C116_response_violates (spec s r : ℝ) (ps : List (ℝ × ℝ)) :
    fluxDensity spec (.point s r :: ps.map fun x => .point x.1 x.2) (some none) =
      (spec * (r * (s + (ps.map Prod.fst).sum)), (fluxDensity spec (.point s r ::
        ps.map fun x => .point x.1 x.2) (some none)).2) := by
  refine Prod.ext ?_ rfl
  show (fluxSum (ps.map fun x => .point x.1 x.2) (Accum.Kahan.init.add (s * r))
    (some (some r))).1.sum * spec = _
  rw [fluxSum_filled r ps _ (kahan_add _ rfl _).1, (kahan_add _ rfl _).2]
  simp [Accum.Kahan.init]
  ring

/-- The value with the cache differs from the one without. -/
example : (fluxDensity 1 [.point 1 1, .point 1 5] (some none)).1 = 2 ∧
    (fluxDensity 1 [.point 1 1, .point 1 5] none).1 = 6 := by
  constructor
  · have := congrArg Prod.fst (C116_response_violates 1 1 1 [(1, 5)])
    simp only [List.map_cons, List.map_nil, List.sum_cons, List.sum_nil] at this
    rw [this]; norm_num
  · rw [C116_flux_partial]; norm_num [Spec.partValue]

theorem derivSums_fold (vs : List ℝ) : ∀ a : Accum.Kahan × Accum.Kahan, a.1.c = 0 → a.2.c = 0 →
    (vs.foldl derivSums a).1.sum - (vs.foldl derivSums a).2.sum = a.1.sum - a.2.sum + vs.sum := by
  induction vs with
  | nil => intro a _ _; simp
  | cons v vs ih =>
    intro a h1 h2
    rw [List.foldl_cons, List.sum_cons]
    by_cases hv : 0 < v
    · have e : derivSums a v = (a.1.add v, a.2) := by unfold derivSums; rw [if_pos hv]
      rw [e, ih (a.1.add v, a.2) (kahan_add _ h1 v).1 h2]
      simp only
      rw [(kahan_add _ h1 v).2]; ring
    · have e : derivSums a v = (a.1, a.2.add (-v)) := by unfold derivSums; rw [if_neg hv]
      rw [e, ih (a.1, a.2.add (-v)) h1 (kahan_add _ h2 (-v)).1]
      simp only
      rw [(kahan_add _ h2 (-v)).2]; ring

theorem mapM_parts {parts : List (String → Res ℝ)} {par : String} {vs : List ℝ}
    (h : List.Forall₂ (fun d v => d par = .ok v) parts vs) :
    parts.mapM (fun d => d par) = .ok vs := by
  induction h with
  | nil => rfl
  | cons h1 _ ih => rw [List.mapM_cons, h1]; simp only [Res.bind_ok]; rw [ih]; rfl

/-- C116 (violation).  The derivative of the flux density of a composite source with respect to a
parameter of its own spectrum, which is the derivative of the spectrum times the sum of the flux
densities of the parts, is not returned: what is returned is the value of the spectrum times the
sum of the derivatives of the parts with respect to parameters of theirs with that name, whatever
the spectrum's own derivative is. -/
theorem C116_deriv_violates (spec : ℝ) {parts : List (String → Res ℝ)} {par : String} {vs : List ℝ}
    (h : List.Forall₂ (fun d v => d par = .ok v) parts vs) :
    fluxDensityDeriv spec parts par = .ok (spec * vs.sum) := by
  unfold fluxDensityDeriv
  rw [mapM_parts h]
  simp only [Res.bind_ok]
  congr 1
  show ((vs.foldl derivSums (Accum.Kahan.init, Accum.Kahan.init)).1.sum -
    (vs.foldl derivSums (Accum.Kahan.init, Accum.Kahan.init)).2.sum) * spec = _
  rw [derivSums_fold vs _ rfl rfl]
  simp [Accum.Kahan.init, mul_comm]

/-- C116 (violation).  If a part has no parameter with the name, the call throws. -/
theorem C116_deriv_throws_violates (spec : ℝ) {pre : List (String → Res ℝ)} {d : String → Res ℝ}
    (post : List (String → Res ℝ)) {par : String} {vs : List ℝ}
    (h : List.Forall₂ (fun d v => d par = .ok v) pre vs) (hd : d par = .throws) :
    fluxDensityDeriv spec (pre ++ d :: post) par = .throws := by
  unfold fluxDensityDeriv
  have : (pre ++ d :: post).mapM (fun d => d par) = Res.throws := by
    clear spec
    induction h with
    | nil => rw [List.nil_append, List.mapM_cons, hd]; rfl
    | cons h1 _ ih =>
      rw [List.cons_append, List.mapM_cons, h1]; simp only [Res.bind_ok]; rw [ih]; rfl
  rw [this]
  rfl

/-- A composite source with `Value` 2 for its spectrum and one part that has flux density 3 and a
parameter `Value` of its own, with derivative 7: the derivative in the composite source's `Value` is
3, what is returned is 14. -/
example : fluxDensityDeriv 2 [fun _ => .ok 7] "Value" = .ok 14 := by
  rw [C116_deriv_violates 2 (vs := [7]) (List.Forall₂.cons rfl List.Forall₂.nil)]
  norm_num

end Verif.Merge
