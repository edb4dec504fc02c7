import Verif.Merge.Model
import Verif.Merge.Spec
import Mathlib.Data.List.Perm.Basic
/-
Lemmas on merging and splitting.
-/
set_option linter.unusedSectionVars false
set_option linter.unusedSimpArgs false
set_option linter.unusedVariables false

namespace Verif.Merge
open Verif.StdMap Spec

variable {ν : Type} [LinearOrder ν]

theorem mapParts_eq (ch : List (ν × List Nat)) (ps : List (ν × Src ν))
    (h : ∀ x ∈ ps, find ch x.1 = some (leaves x.2)) : mapParts ch ps = leavesOf ps := by
  induction ps with
  | nil => simp [mapParts, leavesOf]
  | cons x ps ih =>
    obtain ⟨n, s⟩ := x
    rw [mapParts, leavesOf, h (n, s) (by simp)]
    simp only
    rw [ih fun y hy => h y (by simp [hy])]

theorem mapOf_whole {s : Src ν} (h : Whole true s) : mapOf s = leaves s := by
  cases h with
  | leaf id f => simp [mapOf, leaves]
  | comp f parts cache sorted plain maps whole =>
    obtain ⟨ch, hc, hs, hm⟩ := maps rfl
    subst hc
    rw [mapOf, leaves]
    apply mapParts_eq
    intro x hx
    show find ch x.1 = _
    rw [hm, find_of_mem sorted (k := x.1) (a := x.2) hx]
    rfl

theorem fillParts_eq (ch : List (ν × List Nat)) (ps : List (ν × Src ν))
    (h : ∀ x ∈ ps, find ch x.1 = some (leaves x.2)) :
    fillParts ch ps = ps ∧ fillCache ch ps = ps.map (fun x => (x.1, leaves x.2)) := by
  induction ps with
  | nil => simp [fillParts, fillCache]
  | cons x ps ih =>
    obtain ⟨n, s⟩ := x
    obtain ⟨h1, h2⟩ := ih fun y hy => h y (by simp [hy])
    rw [fillParts, fillCache, h (n, s) (by simp), h1, h2]
    exact ⟨rfl, rfl⟩

theorem find_map (ps : List (ν × Src ν)) (n : ν) :
    find (ps.map (fun x => (x.1, leaves x.2))) n = (find ps n).map leaves := by
  induction ps with
  | nil => rfl
  | cons x ps ih =>
    obtain ⟨k, s⟩ := x
    simp only [List.map_cons, find]
    by_cases hk : k = n
    · rw [if_pos hk, if_pos hk]; rfl
    · rw [if_neg hk, if_neg hk, ih]

theorem fill_whole {s : Src ν} (h : Whole true s) : fill s = s := by
  cases h with
  | leaf id f => simp [fill]
  | comp f parts cache sorted plain maps whole =>
    obtain ⟨ch, hc, hs, hm⟩ := maps rfl
    subst hc
    obtain ⟨h1, h2⟩ := fillParts_eq ch parts (fun x hx => by
      rw [hm, find_of_mem sorted (k := x.1) (a := x.2) hx]; rfl)
    rw [fill]
    show Src.comp f (fillParts ch parts) (some (fillCache ch parts)) = _
    rw [h1, h2]
    congr 2
    apply StdMap.ext
    · have : keys (parts.map (fun x => (x.1, leaves x.2))) = keys parts := by
        unfold keys; rw [List.map_map]; rfl
      unfold Sorted
      rw [this]
      exact sorted
    · exact hs
    · intro k; rw [find_map, hm]

mutual
theorem leaves_fill : ∀ s : Src ν, leaves (fill s) = leaves s
  | .leaf id f => by simp [fill]
  | .comp f ps c => by
    rw [fill, leaves, leaves]
    exact leaves_fillParts _ ps
theorem leaves_fillParts (c : List (ν × List Nat)) :
    ∀ ps : List (ν × Src ν), leavesOf (fillParts c ps) = leavesOf ps
  | [] => by simp [fillParts]
  | (n, s) :: ps => by
    rw [fillParts, leavesOf, leavesOf, leaves_fillParts c ps]
    cases find c n with
    | some _ => rfl
    | none => simp only; rw [leaves_fill s]
end

theorem leavesOf_put {m : List (ν × Src ν)} {n : ν} {s : Src ν} (h : n ∉ keys m) :
    (leavesOf (put m n s)).Perm (leaves s ++ leavesOf m) := by
  induction m with
  | nil => simp [put, leavesOf]
  | cons x m ih =>
    obtain ⟨k, t⟩ := x
    simp only [keys, List.map_cons, List.mem_cons, not_or] at h
    rw [put]
    by_cases h1 : n < k
    · rw [if_pos h1, leavesOf]
    · rw [if_neg h1, if_neg h.1, leavesOf, leavesOf]
      have := (ih h.2).append_left (leaves t)
      refine this.trans ?_
      rw [← List.append_assoc, ← List.append_assoc]
      exact List.perm_append_comm.append_right _

theorem leavesOf_erase {m : List (ν × Src ν)} {n : ν} {s : Src ν} (h : find m n = some s) :
    (leavesOf m).Perm (leaves s ++ leavesOf (erase m n)) := by
  induction m with
  | nil => simp [find] at h
  | cons x m ih =>
    obtain ⟨k, t⟩ := x
    rw [find] at h
    rw [erase]
    by_cases h1 : k = n
    · rw [if_pos h1] at h; cases h
      rw [if_pos h1, leavesOf]
    · rw [if_neg h1] at h
      rw [if_neg h1, leavesOf, leavesOf]
      refine ((ih h).append_left (leaves t)).trans ?_
      rw [← List.append_assoc, ← List.append_assoc]
      exact List.perm_append_comm.append_right _

theorem load_leaves (st : St ν) (n : ν) (s : Src ν) (h : n ∉ keys st.srcs) :
    (leavesOf (load st n s).srcs).Perm (leaves s ++ leavesOf st.srcs) := by
  unfold load
  cases find st.maps n with
  | some _ => exact leavesOf_put h
  | none =>
    show (leavesOf (put st.srcs n (fill s))).Perm _
    rw [← leaves_fill s]
    exact leavesOf_put h

theorem addSource_leaves {st st' : St ν} {n : ν} {s : Src ν} {m : Option (List Nat)}
    (h : addSource st n s m = (st', .ok ())) :
    (leavesOf st'.srcs).Perm (leaves s ++ leavesOf st.srcs) := by
  unfold addSource at h
  by_cases h1 : n ∈ keys st.srcs
  · rw [if_pos h1] at h; cases h
  · rw [if_neg h1] at h
    by_cases h2 : st.binned = false
    · rw [if_pos h2] at h; cases h
      exact leavesOf_put h1
    · rw [if_neg h2] at h
      by_cases h3 : fixed s = true
      · rw [if_pos h3] at h; cases h
        exact load_leaves st n s h1
      · rw [if_neg h3] at h
        cases m with
        | none => cases h; exact load_leaves st n s h1
        | some m => cases h; exact leavesOf_put h1

theorem stealAll_leaves (ns : List ν) : ∀ (st : St ν) (parts : List (ν × Src ν))
    (cache : List (ν × List Nat)) {st' : St ν} {parts' : List (ν × Src ν)}
    {cache' : List (ν × List Nat)},
    stealAll ns st parts cache = (st', .ok (parts', cache')) →
    (leavesOf st'.srcs ++ leavesOf parts').Perm (leavesOf st.srcs ++ leavesOf parts) := by
  induction ns with
  | nil => intro st parts cache st' parts' cache' h; rw [stealAll] at h; cases h; exact List.Perm.refl _
  | cons n ns ih =>
    intro st parts cache st' parts' cache' h
    rw [stealAll] at h
    cases hf : find st.srcs n with
    | none => rw [hf] at h; cases h
    | some s =>
      rw [hf] at h
      simp only at h
      have key : ∀ (hn : n ∉ keys parts),
          (leavesOf (erase st.srcs n) ++ leavesOf (put parts n s)).Perm
            (leavesOf st.srcs ++ leavesOf parts) := by
        intro hn
        have h1 := (leavesOf_put (s := s) hn).append_left (leavesOf (erase st.srcs n))
        have h2 := (leavesOf_erase hf).append_right (leavesOf parts)
        refine h1.trans (List.Perm.trans ?_ h2.symm)
        rw [← List.append_assoc]
        exact List.perm_append_comm.append_right _
      by_cases hb : st.binned = true
      · rw [if_pos hb] at h
        cases hm : find st.maps n with
        | none => rw [hm] at h; cases h
        | some m =>
          rw [hm] at h
          simp only at h
          by_cases hk : n ∈ keys parts ∨ n ∈ keys cache
          · rw [if_pos hk] at h; cases h
          · rw [if_neg hk] at h
            push Not at hk
            exact (ih _ _ _ h).trans (key hk.1)
      · rw [if_neg hb] at h
        by_cases hk : n ∈ keys parts
        · rw [if_pos hk] at h; cases h
        · rw [if_neg hk] at h
          exact (ih _ _ _ h).trans (key hk)

theorem giveAll_leaves (cache : Option (List (ν × List Nat))) (ps : List (ν × Src ν)) :
    ∀ (st : St ν) {st' : St ν}, giveAll cache ps st = (st', .ok ()) →
    (leavesOf st'.srcs).Perm (leavesOf ps ++ leavesOf st.srcs) := by
  induction ps with
  | nil => intro st st' h; rw [giveAll] at h; cases h; simp [leavesOf]
  | cons x ps ih =>
    obtain ⟨n, s⟩ := x
    intro st st' h
    have key : ∀ {m : Option (List Nat)} {st1 : St ν}, addSource st n s m = (st1, .ok ()) →
        giveAll cache ps st1 = (st', .ok ()) →
        (leavesOf st'.srcs).Perm (leavesOf ((n, s) :: ps) ++ leavesOf st.srcs) := by
      intro m st1 ha hg
      refine (ih st1 hg).trans ?_
      rw [leavesOf]
      refine ((addSource_leaves ha).append_left _).trans ?_
      rw [← List.append_assoc]
      exact List.perm_append_comm.append_right _
    rw [giveAll.eq_def] at h
    simp only at h
    cases cache with
    | none =>
      simp only at h
      rcases ha : addSource st n s none with ⟨st1, r⟩
      rw [ha] at h
      cases r with
      | ok u => exact key ha h
      | throws => cases h
      | ub => cases h
    | some ch =>
      simp only at h
      cases hc : find ch n with
      | none => rw [hc] at h; cases h
      | some m =>
        rw [hc] at h
        simp only at h
        rcases ha : addSource st n s (some m) with ⟨st1, r⟩
        rw [ha] at h
        cases r with
        | ok u => exact key ha h
        | throws => cases h
        | ub => cases h

/-! ### Contents -/

theorem stealAll_ok (ns : List ν) : ∀ (st : St ν) (parts : List (ν × Src ν))
    (cache : List (ν × List Nat)), Sorted st.srcs → Sorted st.maps → Sorted parts → Sorted cache →
    ns.Nodup → (∀ n ∈ ns, ∃ s, find st.srcs n = some s) →
    (st.binned = true → ∀ n ∈ ns, ∃ m, find st.maps n = some m) →
    (∀ n ∈ ns, n ∉ keys parts ∧ n ∉ keys cache) →
    ∃ st' parts' cache', stealAll ns st parts cache = (st', .ok (parts', cache')) ∧
      st'.binned = st.binned ∧ Sorted st'.srcs ∧ Sorted st'.maps ∧ Sorted parts' ∧ Sorted cache' ∧
      (∀ x, find st'.srcs x = if x ∈ ns then none else find st.srcs x) ∧
      (∀ x, find st'.maps x = if st.binned = true ∧ x ∈ ns then none else find st.maps x) ∧
      (∀ x, find parts' x = if x ∈ ns then find st.srcs x else find parts x) ∧
      (∀ x, find cache' x = if st.binned = true ∧ x ∈ ns then find st.maps x else find cache x) := by
  induction ns with
  | nil =>
    intro st parts cache h1 h2 h3 h4 _ _ _ _
    exact ⟨st, parts, cache, by rw [stealAll], rfl, h1, h2, h3, h4, by simp, by simp, by simp,
      by simp⟩
  | cons n ns ih =>
    intro st parts cache h1 h2 h3 h4 hnd hs hm hk
    rw [List.nodup_cons] at hnd
    obtain ⟨s, hf⟩ := hs n (by simp)
    obtain ⟨hk1, hk2⟩ := hk n (by simp)
    have hne : ∀ x ∈ ns, x ≠ n := fun x hx e => hnd.1 (e ▸ hx)
    rw [stealAll, hf]
    simp only
    by_cases hb : st.binned = true
    · rw [if_pos hb]
      obtain ⟨m, hfm⟩ := hm hb n (by simp)
      rw [hfm]
      simp only
      rw [if_neg (by simp [hk1, hk2])]
      obtain ⟨st', parts', cache', he, hb', i1, i2, i3, i4, f1, f2, f3, f4⟩ :=
        ih { st with srcs := erase st.srcs n, maps := erase st.maps n } (put parts n s)
          (put cache n m) (sorted_erase h1 n) (sorted_erase h2 n) (sorted_put h3 _ _)
          (sorted_put h4 _ _) hnd.2
          (fun x hx => by
            obtain ⟨t, ht⟩ := hs x (by simp [hx])
            exact ⟨t, by simp only; rw [find_erase h1, if_neg (hne x hx), ht]⟩)
          (fun _ x hx => by
            obtain ⟨t, ht⟩ := hm hb x (by simp [hx])
            exact ⟨t, by simp only; rw [find_erase h2, if_neg (hne x hx), ht]⟩)
          (fun x hx => by
            obtain ⟨a, b⟩ := hk x (by simp [hx])
            exact ⟨fun h => (keys_put.1 h).elim (hne x hx) a,
              fun h => (keys_put.1 h).elim (hne x hx) b⟩)
      refine ⟨st', parts', cache', he, hb', i1, i2, i3, i4, ?_, ?_, ?_, ?_⟩
      · intro x
        rw [f1]
        simp only
        rw [find_erase h1]
        by_cases hx : x = n
        · simp [hx]
        · simp [hx]
      · intro x
        rw [f2]
        simp only
        rw [find_erase h2]
        by_cases hx : x = n
        · simp [hx, hb]
        · simp [hx]
      · intro x
        rw [f3]
        simp only
        rw [find_erase h1, find_put h3]
        by_cases hx : x = n
        · subst hx; simp [hnd.1, hf]
        · simp [hx]
      · intro x
        rw [f4]
        simp only
        rw [find_erase h2, find_put h4]
        by_cases hx : x = n
        · subst hx; simp [hnd.1, hfm, hb]
        · simp [hx]
    · rw [if_neg hb, if_neg hk1]
      obtain ⟨st', parts', cache', he, hb', i1, i2, i3, i4, f1, f2, f3, f4⟩ :=
        ih { st with srcs := erase st.srcs n } (put parts n s)
          cache (sorted_erase h1 n) h2 (sorted_put h3 _ _) h4 hnd.2
          (fun x hx => by
            obtain ⟨t, ht⟩ := hs x (by simp [hx])
            exact ⟨t, by simp only; rw [find_erase h1, if_neg (hne x hx), ht]⟩)
          (fun h => absurd h hb)
          (fun x hx => by
            obtain ⟨a, b⟩ := hk x (by simp [hx])
            exact ⟨fun h => (keys_put.1 h).elim (hne x hx) a, b⟩)
      refine ⟨st', parts', cache', he, hb', i1, i2, i3, i4, ?_, ?_, ?_, ?_⟩
      · intro x
        rw [f1]
        simp only
        rw [find_erase h1]
        by_cases hx : x = n
        · simp [hx]
        · simp [hx]
      · intro x
        rw [f2]
        simp [hb]
      · intro x
        rw [f3]
        simp only
        rw [find_erase h1, find_put h3]
        by_cases hx : x = n
        · subst hx; simp [hnd.1, hf]
        · simp [hx]
      · intro x
        rw [f4]
        simp [hb]

theorem addSource_ok {st : St ν} (hr : Right st.srcs st.maps st.binned) {n : ν} {s : Src ν}
    (hw : Whole st.binned s) (hn : n ∉ keys st.srcs) {m : Option (List Nat)}
    (hm : ∀ m', m = some m' → m' = leaves s)
    (hx : st.binned = true → (m = none ∨ fixed s = true) → find st.maps n = none) :
    ∃ st', addSource st n s m = (st', .ok ()) ∧ st'.binned = st.binned ∧
      Right st'.srcs st'.maps st'.binned ∧
      (∀ x, find st'.srcs x = if x = n then some s else find st.srcs x) ∧
      (∀ x, x ≠ n → find st'.maps x = find st.maps x) := by
  have hsp : ∀ x, find (put st.srcs n s) x = if x = n then some s else find st.srcs x :=
    fun x => find_put hr.sortedSrcs
  have hwh : ∀ x t, find (put st.srcs n s) x = some t → Whole st.binned t := by
    intro x t ht
    rw [hsp] at ht
    by_cases hxn : x = n
    · rw [if_pos hxn] at ht; cases ht; exact hw
    · rw [if_neg hxn] at ht; exact hr.whole x t ht
  unfold addSource
  rw [if_neg hn]
  by_cases hb : st.binned = false
  · rw [if_pos hb]
    refine ⟨_, rfl, rfl, ⟨sorted_put hr.sortedSrcs _ _, hr.sortedMaps, hwh, ?_⟩, hsp,
      fun _ _ => rfl⟩
    intro h; rw [show st.binned = true from h] at hb; cases hb
  · have hbt : st.binned = true := by cases h : st.binned <;> simp_all
    rw [if_neg hb]
    rw [hbt] at hw
    have hload : find st.maps n = none → ∃ st', load st n s = st' ∧ st'.binned = st.binned ∧
        Right st'.srcs st'.maps st'.binned ∧
        (∀ x, find st'.srcs x = if x = n then some s else find st.srcs x) ∧
        (∀ x, x ≠ n → find st'.maps x = find st.maps x) := by
      intro h0
      refine ⟨_, rfl, ?_, ?_, ?_, ?_⟩
      · unfold load; rw [h0]
      · unfold load; rw [h0]
        simp only
        rw [fill_whole hw, mapOf_whole hw]
        refine ⟨sorted_put hr.sortedSrcs _ _, sorted_put hr.sortedMaps _ _, hwh, ?_⟩
        intro _ x t ht
        rw [hsp] at ht
        rw [find_put hr.sortedMaps]
        by_cases hxn : x = n
        · rw [if_pos hxn] at ht; cases ht; rw [if_pos hxn]
        · rw [if_neg hxn] at ht; rw [if_neg hxn]; exact hr.map hbt x t ht
      · intro x; unfold load; rw [h0]
        simp only
        rw [fill_whole hw]; exact hsp x
      · intro x hxn; unfold load; rw [h0]
        simp only
        rw [find_put hr.sortedMaps, if_neg hxn]
    by_cases hfx : fixed s = true
    · rw [if_pos hfx]
      obtain ⟨st', h1, h2⟩ := hload (hx hbt (Or.inr hfx))
      exact ⟨st', by rw [h1], h2⟩
    · rw [if_neg hfx]
      cases m with
      | none =>
        obtain ⟨st', h1, h2⟩ := hload (hx hbt (Or.inl rfl))
        exact ⟨st', by simp only; rw [h1], h2⟩
      | some m =>
        have := hm m rfl
        subst this
        have hse := sorted_erase hr.sortedMaps n
        refine ⟨_, rfl, rfl, ⟨sorted_put hr.sortedSrcs _ _, sorted_put hse _ _, hwh, ?_⟩,
          hsp, ?_⟩
        · intro _ x t ht
          simp only at ht ⊢
          rw [hsp] at ht
          rw [find_put hse]
          by_cases hxn : x = n
          · rw [if_pos hxn] at ht; cases ht; rw [if_pos hxn]
          · rw [if_neg hxn] at ht; rw [if_neg hxn, find_erase hr.sortedMaps, if_neg hxn]
            exact hr.map hbt x t ht
        · intro x hxn
          simp only
          rw [find_put hse, if_neg hxn, find_erase hr.sortedMaps, if_neg hxn]

theorem giveAll_ok (cache : Option (List (ν × List Nat))) (ps : List (ν × Src ν)) :
    ∀ (st : St ν), Right st.srcs st.maps st.binned → Sorted ps →
    (st.binned = false → cache = none) →
    (st.binned = true → ∃ ch, cache = some ch ∧
      ∀ n s, find ps n = some s → find ch n = some (leaves s)) →
    (∀ n s, find ps n = some s → Whole st.binned s ∧ n ∉ keys st.srcs ∧
      (st.binned = true → fixed s = true → find st.maps n = none)) →
    ∃ st', giveAll cache ps st = (st', .ok ()) ∧ st'.binned = st.binned ∧
      Right st'.srcs st'.maps st'.binned ∧
      (∀ x, find st'.srcs x = match find ps x with | some s => some s | none => find st.srcs x) ∧
      (∀ x, x ∉ keys ps → find st'.maps x = find st.maps x) := by
  induction ps with
  | nil =>
    intro st hr _ _ _ _
    exact ⟨st, by rw [giveAll], rfl, hr, fun x => rfl, fun _ _ => rfl⟩
  | cons y ps ih =>
    obtain ⟨n, s⟩ := y
    intro st hr hs hc0 hc1 hp
    rw [sorted_cons] at hs
    have hfn : find ((n, s) :: ps) n = some s := by simp [find]
    have hnk : n ∉ keys ps := fun h => lt_irrefl _ (hs.1 n h)
    have hfx : ∀ x t, find ps x = some t → x ≠ n ∧ find ((n, s) :: ps) x = some t := by
      intro x t ht
      have hne : x ≠ n := fun e => hnk (e ▸ mem_keys_of_find ht)
      refine ⟨hne, ?_⟩
      simp only [find]
      rw [if_neg (Ne.symm hne), ht]
    obtain ⟨hw, hnot, hmp⟩ := hp n s hfn
    have main : ∀ (m : Option (List Nat)), (∀ m', m = some m' → m' = leaves s) →
        (st.binned = true → m ≠ none) →
        ∃ st1, addSource st n s m = (st1, .ok ()) ∧
          ∃ st', giveAll cache ps st1 = (st', .ok ()) ∧ st'.binned = st.binned ∧
            Right st'.srcs st'.maps st'.binned ∧
            (∀ x, find st'.srcs x =
              match find ((n, s) :: ps) x with | some s => some s | none => find st.srcs x) ∧
            (∀ x, x ∉ keys ((n, s) :: ps) → find st'.maps x = find st.maps x) := by
      intro m hm hmn
      obtain ⟨st1, h1, h2, h3, h4, h5⟩ := addSource_ok hr hw hnot hm (fun hb ho => by
        rcases ho with ho | ho
        · exact absurd ho (hmn hb)
        · exact hmp hb ho)
      obtain ⟨st', g1, g2, g3, g4, g5⟩ := ih st1 h3 hs.2 (by rw [h2]; exact hc0)
        (by
          rw [h2]
          intro hb
          obtain ⟨ch, hch, hall⟩ := hc1 hb
          exact ⟨ch, hch, fun x t ht => hall x t (hfx x t ht).2⟩)
        (by
          rw [h2]
          intro x t ht
          obtain ⟨hne, hft⟩ := hfx x t ht
          obtain ⟨a, b, c⟩ := hp x t hft
          refine ⟨a, ?_, fun hb hf => ?_⟩
          · intro hk
            obtain ⟨u, hu⟩ := mem_keys_iff.1 hk
            rw [h4, if_neg hne] at hu
            exact b (mem_keys_of_find hu)
          · rw [h5 x hne]; exact c hb hf)
      refine ⟨st1, h1, st', g1, by rw [g2, h2], g3, ?_, ?_⟩
      · intro x
        rw [g4 x]
        by_cases hx : x = n
        · subst hx
          rw [hfn, find_none.2 hnk]
          simp only
          rw [h4, if_pos rfl]
        · simp only [find]
          rw [if_neg (Ne.symm hx)]
          cases find ps x with
          | some t => rfl
          | none => simp only; rw [h4, if_neg hx]
      · intro x hx
        simp only [keys, List.map_cons, List.mem_cons, not_or] at hx
        rw [g5 x hx.2, h5 x hx.1]
    rw [giveAll.eq_def]
    simp only
    cases hb : st.binned with
    | false =>
      have := hc0 hb
      subst this
      obtain ⟨st1, h1, st', g1, g2, g3, g4, g5⟩ := main none (fun _ h => by cases h)
        (fun h => by rw [hb] at h; cases h)
      rw [h1]
      simp only
      exact ⟨st', g1, by rw [g2, hb], g3, g4, g5⟩
    | true =>
      obtain ⟨ch, hch, hall⟩ := hc1 hb
      subst hch
      obtain ⟨st1, h1, st', g1, g2, g3, g4, g5⟩ := main (some (leaves s))
        (fun _ h => by cases h; rfl) (fun _ h => by cases h)
      simp only
      rw [hall n s hfn]
      simp only
      rw [h1]
      simp only
      exact ⟨st', g1, by rw [g2, hb], g3, g4, g5⟩

end Verif.Merge
