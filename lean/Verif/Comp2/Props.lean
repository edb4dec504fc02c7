import Mathlib.Algebra.Order.Ring.Rat
import Mathlib.Algebra.Field.Rat
import Mathlib.Tactic.NormNum
import Verif.Comp2.Lemmas
import Verif.Summed.Props

set_option linter.unusedSectionVars false
set_option linter.unusedSimpArgs false
set_option linter.unusedVariables false

/-! # Property C21: composite likelihood with tied parameters -/

namespace Verif.Comp2

open SrcModel Summed Comp2.Spec

variable {κ K : Type} [LinearOrder κ] [Field K] [LinearOrder K] [IsStrictOrderedRing K]

theorem valueLoop_eq (h : Nat → M κ K) (st : Nat → Stat κ K) (cs : List (Nat × List Nat)) (v : K) :
    valueLoop h st cs v = v + (cs.map (fun c =>
      (st c.1).val ((h c.1).sources.map (fun y => y.2.pars)).flatten true)).sum := by
  induction cs generalizing v with
  | nil => simp [valueLoop]
  | cons c cs ih =>
    obtain ⟨a, idx⟩ := c
    rw [valueLoop, ih, List.map_cons, List.sum_cons, collect_eq, add_assoc]

/-- **C21**: the value is the sum of the values of the components. -/
theorem C21_value (s : C κ K) (st : Nat → Stat κ K) :
    value s st = (s.comps.map (fun c =>
      (st c.1).val ((s.like c.1).sources.map (fun y => y.2.pars)).flatten true)).sum := by
  unfold value
  rw [valueLoop_eq, zero_add]

/-- **C21**: the number of free parameters is the number of slots, and the list of free
parameters has that length. -/
theorem C21_number (s : C κ K) (h : Tidy s) (hc : s.comps ≠ []) :
    getNumFreeParams s = (slots s).length ∧
    ∃ ps, getFreeParams s = .ok ps ∧ ps.length = (slots s).length := by
  have hlen : (freeComps s.like s.comps).length + (freeTied s.ties).length = (slots s).length := by
    rw [slots_eq h, freeTied_eq, freeComps_length]
    simp
  refine ⟨?_, ?_⟩
  · unfold getNumFreeParams
    rw [countTied_eq, countComps_eq, Nat.zero_add, hlen]
  · unfold getFreeParams
    have : s.comps.isEmpty = false := by simpa using hc
    rw [this]
    exact ⟨_, rfl, by rw [List.length_append]; exact hlen⟩

/-- **C21**: the free parameter in position `k` is the list entry of the parameter that slot `k`
drives, when that is a parameter that is not tied. -/
theorem C21_untied_entry (s : C κ K) (h : Tidy s) (hc : s.comps ≠ []) (ps : List (Par κ K))
    (hps : getFreeParams s = .ok ps) (k : Nat) (x : Nat × Nat) (hk : (slots s)[k]? = some [x])
    (hx : ∀ t ∈ s.ties, x ∉ t.members) : ps[k]? = entry s x := by
  have he : s.comps.isEmpty = false := by simpa using hc
  unfold getFreeParams at hps
  rw [he] at hps
  simp only [Bool.false_eq_true, ↓reduceIte, Res.ok.injEq] at hps
  subst hps
  rw [slots_eq h] at hk
  have hlen := freeComps_length s.like s.comps
  by_cases hlt : k < (untiedAll s.like s.comps).length
  · rw [List.getElem?_append_left (by omega), freeComps_get]
    rw [List.getElem?_append_left (by simpa using hlt), List.getElem?_map] at hk
    obtain ⟨y, hy, e⟩ := Option.map_eq_some_iff.mp hk
    simp only [List.cons.injEq, and_true] at e
    subst e
    rw [hy]
    rfl
  · rw [List.getElem?_append_right (by simpa using hlt), List.getElem?_map] at hk
    obtain ⟨t, ht, e⟩ := Option.map_eq_some_iff.mp hk
    exact absurd (by rw [e]; simp) (hx t (List.mem_filter.mp (List.mem_of_getElem? ht)).1)

/-- **C21**: the derivatives are the gradient, a tied group having the sum of the derivatives with
respect to its members, when the free flags of the sources of each object agree with its list. -/
theorem C21_gradient (s : C κ K) (h : Tidy s) (st : Nat → Stat κ K)
    (ha : ∀ c ∈ s.comps, ((s.like c.1).sources.map (fun x => x.2.pars)).flatten.map (·.free) =
      (s.like c.1).param.map (·.free)) : getFreeDerivs s st = .ok (gradient s st) := by
  have h0 : List.replicate s.ties.length (0 : K) = s.ties.map (fun _ => 0) := by
    simp [List.map_const']
  unfold getFreeDerivs
  rw [h0, derivComps_ok s.ties s.like st (der s st) s.comps [] (fun _ => 0) h.idx (by
    intro c hc
    unfold compDerivs
    rw [collect_eq, freePositions_congr 0 _ _ (ha c hc)]
    rfl), Res.bind_ok, derivTail_map]
  congr 1
  unfold gradient
  rw [slots_eq h, List.map_append, List.map_map, List.map_map, List.nil_append]
  congr 1
  · apply List.map_congr_left
    intro x _
    simp
  · apply List.map_congr_left
    intro t ht
    obtain ⟨htm, htf⟩ := List.mem_filter.mp ht
    rw [zero_add]
    exact ((members_perm h htm htf).map (der s st)).sum_eq

/-- **C21**, part: with every group free and no parameter in two groups, `findIndex` of a
parameter is the slot that drives it, and none when no slot does. -/
theorem C21_find_index_partial (s : C κ K) (h : Tidy s) (hd : Disjoint s)
    (hf : ∀ t ∈ s.ties, t.par.free = true) (x : Nat × Nat) (k : Nat) :
    findIndex s x.1 x.2 = some k ↔ ∃ g, (slots s)[k]? = some g ∧ x ∈ g := by
  rw [findIndex_all h hd, allSlots_eq h hf]

/-- **C21** is false: `findIndex` is wrong for a free group that comes after a fixed one: it is
not the slot that drives the parameter. -/
theorem C21_find_index_violates (s : C κ K) (h : Tidy s) (hd : Disjoint s)
    (a b c : List (Tied κ K)) (tf t : Tied κ K) (hs : s.ties = a ++ tf :: b ++ t :: c)
    (hfix : tf.par.free = false) (hfree : t.par.free = true) (x : Nat × Nat)
    (hx : x ∈ t.members) :
    ∃ k, findIndex s x.1 x.2 = some k ∧ ∀ g, (slots s)[k]? = some g → x ∉ g := by
  set U := untiedAll s.like s.comps with hU
  have hk : findIndex s x.1 x.2 = some (U.length + (a ++ tf :: b).length) := by
    rw [findIndex_all h hd]
    refine ⟨t.members, ?_, hx⟩
    unfold allSlots
    rw [List.getElem?_append_right (by simp [← hU]), List.getElem?_map, hs]
    simp [← hU]
  refine ⟨_, hk, ?_⟩
  intro g hg hig
  rw [slots_eq h, List.getElem?_append_right (by simp [← hU]), List.getElem?_map] at hg
  simp only [List.length_map, ← hU, Nat.add_sub_cancel_left] at hg
  obtain ⟨t', ht', rfl⟩ := Option.map_eq_some_iff.mp hg
  have hpw := hd
  unfold Spec.Disjoint at hpw
  rw [hs] at ht' hpw
  rw [List.filter_append] at ht'
  have hlt : ((a ++ tf :: b).filter (fun t => t.par.free)).length < (a ++ tf :: b).length :=
    List.length_filter_lt_length_iff_exists.mpr ⟨tf, by simp, by simp [hfix]⟩
  rw [List.getElem?_append_right hlt.le, List.filter_cons, if_pos hfree] at ht'
  obtain ⟨q, hq⟩ : ∃ q, (a ++ tf :: b).length -
      ((a ++ tf :: b).filter (fun t => t.par.free)).length = q + 1 :=
    ⟨(a ++ tf :: b).length - ((a ++ tf :: b).filter (fun t => t.par.free)).length - 1, by omega⟩
  rw [hq, List.getElem?_cons_succ] at ht'
  have hmem : t' ∈ c := (List.mem_filter.mp (List.mem_of_getElem? ht')).1
  exact (List.pairwise_cons.mp (List.pairwise_append.mp hpw).2.1).1 t' hmem x hx hig

theorem agree_like {h h' : Nat → M κ K} (hl : Like h h') {a : Nat} (ha : Agree (h a))
    (hfix : ∀ (i : Nat) (p : Par κ K), (h a).param[i]? = some p → p.free = false →
      (h' a).param[i]? = some p) : Agree (h' a) := by
  unfold Agree at *
  obtain ⟨e1, e2⟩ := hl a
  rw [e1]
  have hlen : (h' a).param.length = (h a).param.length := by simpa using congrArg List.length e2
  rw [List.forall₂_iff_get] at ha ⊢
  refine ⟨by rw [hlen]; exact ha.1, ?_⟩
  intro i hi1 hi2
  have hi3 : i < (h a).param.length := by omega
  have hh := ha.2 i hi1 hi3
  have hs := free_of_shape e2 i
  simp only [List.get_eq_getElem] at hh ⊢
  rw [List.getElem?_eq_getElem hi2, List.getElem?_eq_getElem hi3] at hs
  simp only [Option.map_some, Option.some.injEq, Par.shape, Prod.mk.injEq] at hs
  refine ⟨hh.1.trans hs.1.symm, hh.2.1.trans hs.2.2.2.2.symm, ?_⟩
  intro hf
  have h1 := hfix i _ (List.getElem?_eq_getElem hi3) (hh.2.1.symm.trans hf)
  rw [List.getElem?_eq_getElem hi2] at h1
  simp only [Option.some.injEq] at h1
  rw [h1]
  exact hh.2.2 hf

/-- **C21**: setting the free parameters to as many values as there are slots, each within the
bounds, succeeds; afterwards the free values read are those given, every parameter driven by a
slot has the value of the slot, all other parameters are unchanged, and the sources of every
component hold the parameters in its list. -/
theorem C21_set_free (s : C κ K) (h : Tidy s) (hd : Disjoint s) (hc : s.comps ≠ [])
    (hw : ∀ c ∈ s.comps, WF (s.like c.1) ∧
      (∀ x ∈ (s.like c.1).sources, (x.2.pars.map (·.name)).Nodup) ∧ Agree (s.like c.1))
    (hbd : ∀ t ∈ s.ties, ∀ x ∈ t.members, ∀ p, entry s x = some p →
      p.lo = t.par.lo ∧ p.hi = t.par.hi)
    (ps : List (Par κ K)) (hps : getFreeParams s = .ok ps) (vs : List K)
    (hv : List.Forall₂ (fun p v => p.lo ≤ v ∧ v ≤ p.hi) ps vs) :
    ∃ s', setFreeParamValues s vs = .ok s' () ∧ getFreeParamValues s' = .ok vs ∧
      slots s' = slots s ∧ s'.comps = s.comps ∧ (∀ c ∈ s.comps, Mirror (s'.like c.1)) ∧
      (∀ (k : Nat) (x : Nat × Nat) (g : List (Nat × Nat)), (slots s)[k]? = some g → x ∈ g →
        (entry s' x).map (fun p => p.value) = vs[k]?) ∧
      (∀ x, (∀ g ∈ slots s, x ∉ g) → entry s' x = entry s x) := by
  have he : s.comps.isEmpty = false := by simpa using hc
  unfold getFreeParams at hps
  rw [he] at hps
  simp only [Bool.false_eq_true, ↓reduceIte, Res.ok.injEq] at hps
  subst hps
  obtain ⟨us, ws, rfl, hus, hws⟩ := forall₂_append_left hv
  obtain ⟨h1, a1, a2, a3, a4⟩ := setComps_ok ws s.comps s.like us h.keys hus
  have hnu : ∀ t ∈ s.ties, ∀ x ∈ t.members, x ∉ untiedAll s.like s.comps :=
    fun t ht x hx hu => untied_not_tied h hu t ht hx
  obtain ⟨ts2, h2, b1, b2, b3, b4, b5, b6⟩ := setTied_ok [] s.ties h1 ws hd (by
    intro t ht x hx
    obtain ⟨p, hp, _⟩ := h.free t ht x hx
    have := hbd t ht x hx p hp
    refine ⟨p, ?_, this.1, this.2⟩
    rw [a4 x.1 x.2 (hnu t ht x hx)]
    exact hp) hws
  rw [List.append_nil] at b1
  have hlike : Like s.like h2 := a2.trans b3
  have hkeep : ∀ x : Nat × Nat, x ∉ untiedAll s.like s.comps →
      (∀ t ∈ s.ties, t.par.free = true → x ∉ t.members) →
      (h2 x.1).param[x.2]? = (s.like x.1).param[x.2]? := by
    intro x hx1 hx2
    rw [b6 x hx2, a4 x.1 x.2 hx1]
  have hag : ∀ c ∈ s.comps, Agree (h2 c.1) := by
    intro c hcc
    apply agree_like hlike (hw c hcc).2.2
    intro i p hp hf
    rw [← hp]
    apply hkeep (c.1, i)
    · intro hu
      obtain ⟨_, _, _, q, hq, hqf, _⟩ := mem_untiedAll.mp hu
      simp only at hq
      rw [hp] at hq
      cases hq
      rw [hf] at hqf
      cases hqf
    · intro t ht htf hm
      obtain ⟨q, hq, hqf⟩ := h.free t ht _ hm
      unfold entry at hq
      simp only at hq
      rw [hp] at hq
      cases hq
      rw [hf, htf] at hqf
      cases hqf
  have hsrc : ∀ a, (h2 a).sources = (s.like a).sources := fun a => (hlike a).1
  obtain ⟨h3, c1, c2, c3, c4⟩ := syncComps_ok s.comps h2 [] h.keys (by
    intro c hcc
    obtain ⟨w1, w2, w3⟩ := hw c hcc
    refine ⟨⟨by rw [hsrc]; exact w1.sorted, by rw [hsrc]; exact w1.names⟩,
      by rw [hsrc]; exact w2, hag c hcc⟩)
  set ps3 := s.comps.flatMap (fun c => keep c.2 0 (h2 c.1).param) with hps3
  set s' : C κ K := ⟨s.comps, ts2, ps3 ++ ts2.map (·.par), h3⟩ with hs'
  have hset : setFreeParamValues s (us ++ ws) = .ok s' () := by
    unfold setFreeParamValues
    rw [he]
    simp only [Bool.false_eq_true, ↓reduceIte, a1, b1]
    unfold syncParams
    simp only [c1, List.nil_append, hs']
  have hent : ∀ x, entry s' x = (h2 x.1).param[x.2]? := by
    intro x
    unfold entry
    rw [hs']
    simp only [c2]
  have hms2 : ts2.map (fun t => (t.members, t.par.free)) =
      s.ties.map (fun t => (t.members, t.par.free)) := by
    have := congrArg (List.map (fun q : List (Nat × Nat) × (κ × K × K × K × Bool) =>
      (q.1, q.2.2.2.2.2))) b2
    rw [List.map_map, List.map_map] at this
    exact this
  have hfil : ∀ a b : List (Tied κ K), a.map (fun t => (t.members, t.par.free)) =
      b.map (fun t => (t.members, t.par.free)) →
      (a.filter (fun t => t.par.free)).map (fun t => t.members) =
      (b.filter (fun t => t.par.free)).map (fun t => t.members) := by
    intro a
    induction a with
    | nil => intro b hb; cases b <;> simp_all
    | cons x a ih =>
      intro b hb
      cases b with
      | nil => simp at hb
      | cons y b =>
        simp only [List.map_cons, List.cons.injEq, Prod.mk.injEq] at hb
        rw [List.filter_cons, List.filter_cons, hb.1.2]
        split
        · simp [hb.1.1, ih b hb.2]
        · exact ih b hb.2
  have hall : ∀ x, ts2.all (fun t => decide (x ∉ t.members)) =
      s.ties.all (fun t => decide (x ∉ t.members)) := by
    intro i
    have h1 : ∀ l : List (Tied κ K), l.all (fun t => decide (i ∉ t.members)) =
        (l.map (fun t => (t.members, t.par.free))).all (fun q => decide (i ∉ q.1)) := by
      intro l; rw [List.all_map]; rfl
    rw [h1, h1, hms2]
  have hslots : slots s' = slots s := by
    unfold slots
    rw [hs']
    simp only [hall, hfil _ _ hms2]
    congr 1
    apply List.flatMap_congr
    intro c _
    rw [c2]
    have hlen : (h2 c.1).param.length = (s.like c.1).param.length := by
      simpa using congrArg List.length (hlike c.1).2
    rw [hlen]
    congr 1
    apply List.filter_congr
    intro i _
    congr 1
    rw [← hs', hent]
    unfold entry
    simp only
    have hf : ((h2 c.1).param[i]?).map (fun p : Par κ K => p.free) =
        ((s.like c.1).param[i]?).map (fun p => p.free) := by
      have := free_of_shape (hlike c.1).2 i
      have := congrArg (Option.map (fun q : κ × K × K × K × Bool => q.2.2.2.2)) this
      rw [Option.map_map, Option.map_map] at this
      exact this
    rw [hf]
  have hun : freeComps h2 s.comps = freeComps h1 s.comps := by
    rw [freeComps_eq, freeComps_eq]
    apply List.flatMap_congr
    intro c hcc
    apply List.ext_getElem?
    intro k
    rw [untiedLoop_get, untiedLoop_get, untiedIdxs_shape (b3 c.1).2]
    cases hk : (untiedIdxs c.2 0 (h1 c.1).param)[k]? with
    | none => rfl
    | some j =>
      simp only [Option.bind_some, Nat.sub_zero]
      obtain ⟨q, _, _, hj⟩ := mem_untiedIdxs.mp (List.mem_of_getElem? hk)
      exact b6 (c.1, j) (fun t ht _ hjm => hj ((h.idx c hcc j).mpr ⟨t, ht, hjm⟩))
  have hfree' : getFreeParams s' = .ok (freeComps h2 s.comps ++ freeTied ts2) := by
    unfold getFreeParams
    rw [hs']
    simp only [he, Bool.false_eq_true, ↓reduceIte]
    congr 2
    rw [freeComps_eq, freeComps_eq]
    apply List.flatMap_congr
    intro c _
    rw [c2]
  refine ⟨s', hset, ?_, hslots, rfl, c3, ?_, ?_⟩
  · unfold getFreeParamValues
    rw [hfree', Res.bind_ok, List.map_append, hun, a3, b4]
  · intro k x g hk hx
    rw [hent]
    rw [slots_eq h] at hk
    have hUlen : us.length = (untiedAll s.like s.comps).length := by
      rw [← freeComps_length]
      exact hus.length_eq.symm
    by_cases hlt : k < us.length
    · rw [List.getElem?_append_left (by simpa [hUlen] using hlt), List.getElem?_map] at hk
      obtain ⟨y, hy, rfl⟩ := Option.map_eq_some_iff.mp hk
      simp only [List.mem_singleton] at hx
      subst hx
      have hk' : (slots s')[k]? = some [x] := by
        rw [hslots, slots_eq h, List.getElem?_append_left (by simpa [hUlen] using hlt),
          List.getElem?_map, hy]
        rfl
      have hua : untiedAll h2 s.comps = untiedAll s.like s.comps := by
        unfold untiedAll
        apply List.flatMap_congr
        intro c _
        rw [untiedIdxs_shape (hlike c.1).2]
      rw [List.getElem?_append_left hlt, ← a3, ← hun, List.getElem?_map, freeComps_get, hua, hy]
      rfl
    · rw [List.getElem?_append_right (by simp [← hUlen]; omega), List.getElem?_map] at hk
      simp only [List.length_map, ← hUlen] at hk
      rw [List.getElem?_append_right (by omega), ← b4, freeTied_eq, List.map_map,
        List.getElem?_map]
      rw [← List.getElem?_map, ← hfil _ _ hms2, List.getElem?_map] at hk
      obtain ⟨t, ht, rfl⟩ := Option.map_eq_some_iff.mp hk
      rw [ht]
      have htm := List.mem_filter.mp (List.mem_of_getElem? ht)
      exact b5 t htm.1 htm.2 x hx
  · intro x hx
    rw [hent]
    apply hkeep x
    · intro hu
      refine hx [x] ?_ (by simp)
      rw [slots_eq h]
      exact List.mem_append_left _ (List.mem_map.mpr ⟨x, hu, rfl⟩)
    · intro t ht htf hm
      refine hx t.members ?_ hm
      rw [slots_eq h]
      exact List.mem_append_right _ (List.mem_map.mpr ⟨t, List.mem_filter.mpr ⟨ht, htf⟩, rfl⟩)

/-- **C21**: tying existing parameters of components, each once and none of them tied before,
succeeds; the new group takes the attributes of the first and writes them over the others,
everything else is unchanged and the groups stay tidy and disjoint. -/
theorem C21_tie_ok (dflt : Par κ K) (s : C κ K) (h : Tidy s) (hd : Disjoint s) (x0 : Nat × Nat)
    (xs : List (Nat × Nat)) (p0 : Par κ K) (hp0 : entry s x0 = some p0) (hnd : (x0 :: xs).Nodup)
    (hin : ∀ x ∈ x0 :: xs, x.1 ∈ s.comps.map Prod.fst ∧ (entry s x).isSome ∧
      ∀ t ∈ s.ties, x ∉ t.members) :
    ∃ s', tieParameters dflt s (x0 :: xs) = .ok s' () ∧ Tidy s' ∧ Disjoint s' ∧
      s'.ties = s.ties ++ [⟨p0, x0 :: xs⟩] ∧ s'.comps.map Prod.fst = s.comps.map Prod.fst ∧
      (∀ a, (s'.like a).sources = (s.like a).sources) ∧
      (∀ x, entry s' x = if x ∈ x0 :: xs then some p0 else entry s x) := by
  have hsrt : StdMap.Sorted s.comps := h.keys
  -- the first member
  obtain ⟨hk0, he0, hn0⟩ := hin x0 List.mem_cons_self
  obtain ⟨l0, hl0⟩ := StdMap.mem_keys_iff.mp hk0
  have hp0' : (s.like x0.1).param[x0.2]? = some p0 := hp0
  have hset : setList s.like x0.1 ((s.like x0.1).param.set x0.2 p0) = s.like := by
    obtain ⟨hlt, he⟩ := List.getElem?_eq_some_iff.mp hp0'
    have : (s.like x0.1).param.set x0.2 p0 = (s.like x0.1).param := by
      rw [← he]; exact List.set_getElem_self _
    rw [this]
    funext a
    by_cases ha : a = x0.1
    · subst ha; rw [setList_same]
    · rw [setList_other s.like _ ha]
  set s1 : C κ K := { s with comps := StdMap.put s.comps x0.1 (l0 ++ [x0.2]) } with hs1
  have hent1 : ∀ x, entry s1 x = entry s x := fun _ => rfl
  obtain ⟨s2, b1, b2, b3, b4, b5, b6⟩ := tieLoop_ok p0 xs s1 ⟨p0, [x0]⟩ (by simp) rfl hnd
    (StdMap.sorted_put hsrt _ _) (by
      intro x hx
      obtain ⟨e1, e2, _⟩ := hin x (List.mem_cons_of_mem _ hx)
      exact ⟨StdMap.keys_put.mpr (Or.inr e1), e2⟩)
  have hloop : tieLoop (x0 :: xs) s ⟨dflt, []⟩ = .ok s2 ⟨p0, x0 :: xs⟩ := by
    rw [tieLoop]
    have : addParam s.like ⟨dflt, []⟩ x0 = some (s.like, ⟨p0, [x0]⟩) := by
      unfold addParam
      rw [hp0']
      simp only [List.isEmpty_nil, ↓reduceIte, List.contains_nil, Bool.false_eq_true,
        List.nil_append, hset]
    rw [this]
    simp only
    rw [hl0]
    exact b1
  have hfind : ∀ a, StdMap.find s2.comps a = (StdMap.find s.comps a).map
      (fun l => l ++ ((x0 :: xs).filter (fun x => x.1 = a)).map Prod.snd) := by
    intro a
    rw [b4, hs1]
    simp only
    rw [StdMap.find_put hsrt]
    by_cases ha : a = x0.1
    · subst ha
      simp [hl0]
    · rw [if_neg ha, List.filter_cons, if_neg (by simpa using Ne.symm ha)]
  have hkeys : s2.comps.map Prod.fst = s.comps.map Prod.fst := by
    have hperm : List.Perm (s2.comps.map Prod.fst) (s.comps.map Prod.fst) := by
      refine (List.perm_ext_iff_of_nodup (StdMap.nodup_keys b3) (StdMap.nodup_keys hsrt)).mpr ?_
      intro a
      show a ∈ StdMap.keys s2.comps ↔ a ∈ StdMap.keys s.comps
      rw [StdMap.mem_keys_iff, StdMap.mem_keys_iff]
      rw [hfind]
      cases StdMap.find s.comps a <;> simp
    exact hperm.eq_of_pairwise (fun a b _ _ h1 h2 => absurd h1 (by omega)) b3 hsrt
  have hent : ∀ x, entry s2 x = if x ∈ x0 :: xs then some p0 else entry s x := by
    intro x
    rw [b6, hent1]
    by_cases h1 : x ∈ xs
    · simp [h1]
    · by_cases h2 : x = x0
      · subst h2; simp [h1, hp0]
      · simp [h1, h2]
  have htie : tieParameters dflt s (x0 :: xs) =
      .ok { s2 with ties := s2.ties ++ [⟨p0, x0 :: xs⟩] } () := by
    unfold tieParameters
    rw [hloop]
  have hb2 : s2.ties = s.ties := b2
  refine ⟨_, htie, ?_, ?_, by simp only [hb2], hkeys, b5, hent⟩
  · refine ⟨b3, ?_, ?_, ?_, ?_, ?_⟩
    · intro c hc i
      simp only at hc
      have hf := hfind c.1
      rw [StdMap.find_of_mem b3 (k := c.1) (a := c.2) hc] at hf
      obtain ⟨l, hl, he⟩ := Option.map_eq_some_iff.mp hf.symm
      have hi := h.idx (c.1, l) (StdMap.find_some_mem hl) i
      simp only at hi
      rw [← he, List.mem_append, hi, hb2]
      simp only [List.mem_map, List.mem_filter, decide_eq_true_eq, List.mem_append,
        List.mem_cons, List.not_mem_nil, or_false]
      constructor
      · rintro (⟨t, ht, hm⟩ | ⟨⟨xa, xi⟩, ⟨hx, rfl⟩, rfl⟩)
        · exact ⟨t, Or.inl ht, hm⟩
        · exact ⟨_, Or.inr rfl, List.mem_cons.mpr hx⟩
      · rintro ⟨t, ht | rfl, hm⟩
        · exact Or.inl ⟨t, ht, hm⟩
        · exact Or.inr ⟨(c.1, i), ⟨List.mem_cons.mp hm, rfl⟩, rfl⟩
    · intro t ht
      simp only [hb2] at ht
      rcases List.mem_append.mp ht with ht | ht
      · exact h.nonempty t ht
      · simp only [List.mem_singleton] at ht; subst ht; simp
    · intro t ht
      simp only [hb2] at ht
      rcases List.mem_append.mp ht with ht | ht
      · exact h.nodup t ht
      · simp only [List.mem_singleton] at ht; subst ht; exact hnd
    · intro t ht x hx
      simp only [hb2] at ht
      show x.1 ∈ s2.comps.map Prod.fst
      rw [hkeys]
      rcases List.mem_append.mp ht with ht | ht
      · exact h.mem t ht x hx
      · simp only [List.mem_singleton] at ht; subst ht; exact (hin x hx).1
    · intro t ht x hx
      simp only [hb2] at ht
      show ∃ p, entry s2 x = some p ∧ _
      rw [hent]
      rcases List.mem_append.mp ht with ht | ht
      · rw [if_neg (fun hm => (hin x hm).2.2 t ht hx)]
        exact h.free t ht x hx
      · simp only [List.mem_singleton] at ht; subst ht
        rw [if_pos hx]
        exact ⟨p0, rfl, rfl⟩
  · unfold Spec.Disjoint
    simp only [hb2]
    refine List.pairwise_append.mpr ⟨hd, List.pairwise_singleton _ _, ?_⟩
    intro a ha b hb x hx hx'
    simp only [List.mem_singleton] at hb
    subst hb
    exact (hin x hx').2.2 a ha hx

/-! ## Examples and violations -/

/-- A parameter called 1, free, with bounds 0 and 10. -/
def exQ (v : ℚ) : Par Nat ℚ := ⟨1, v, 1, 0, 10, true⟩

/-- An object with two sources with one parameter each. -/
def exO (u v : ℚ) : M Nat ℚ :=
  ⟨[(4, ⟨4, [exQ u], none⟩), (5, ⟨5, [exQ v], none⟩)], [exQ u, exQ v], [4, 5]⟩

/-- Two components, nothing tied. -/
def exC0 : C Nat ℚ := ⟨[(0, []), (1, [])], [], [], fun a => if a = 0 then exO 2 3 else exO 4 5⟩

theorem exC0_tidy : Tidy exC0 :=
  ⟨by simp [exC0], by simp [exC0], by simp [exC0], by simp [exC0], by simp [exC0], by simp [exC0]⟩

theorem exC0_disjoint : Disjoint exC0 := List.Pairwise.nil

theorem exC0_entry (x : Nat × Nat) (h1 : x.1 < 2) (h2 : x.2 < 2) : (entry exC0 x).isSome := by
  unfold entry exC0
  simp only
  split <;> simp [exO, h2]

/-- The first parameter of each of the two objects tied: the group has the first value. -/
theorem exC_tie : ∃ s, tieParameters (exQ 0) exC0 [(0, 0), (1, 0)] = .ok s () ∧ Tidy s ∧
    Disjoint s ∧ s.ties = [⟨exQ 2, [(0, 0), (1, 0)]⟩] ∧ s.comps.map Prod.fst = [0, 1] ∧
    (∀ a, (s.like a).sources = (exC0.like a).sources) ∧
    ∀ x, entry s x = if x ∈ [(0, 0), (1, 0)] then some (exQ 2) else entry exC0 x := by
  obtain ⟨s, h1, h2, h3, h4, h5, h6, h7⟩ := C21_tie_ok (exQ 0) exC0 exC0_tidy exC0_disjoint (0, 0)
    [(1, 0)] (exQ 2) rfl (by simp) (by simp [exC0, entry, exO])
  exact ⟨s, h1, h2, h3, h4, h5, h6, h7⟩

/-- The state after the tie, written out. -/
def exC : C Nat ℚ :=
  ⟨[(0, [0]), (1, [0])], [⟨exQ 2, [(0, 0), (1, 0)]⟩], [],
    fun a => if a = 0 then exO 2 3 else { exO 4 5 with param := [exQ 2, exQ 5] }⟩

theorem exC_tidy : Tidy exC := by
  have hmem : ∀ t ∈ exC.ties, ∀ x ∈ t.members, t = ⟨exQ 2, [(0, 0), (1, 0)]⟩ ∧
      (x = (0, 0) ∨ x = (1, 0)) := by
    intro t ht x hx
    have : t = ⟨exQ 2, [(0, 0), (1, 0)]⟩ := by simpa [exC] using ht
    subst this
    exact ⟨rfl, by simpa using hx⟩
  refine ⟨by simp [exC], ?_, by simp [exC], by simp [exC], ?_, ?_⟩
  · intro c hc i
    have : c = (0, [0]) ∨ c = (1, [0]) := by simpa [exC] using hc
    rcases this with rfl | rfl <;> simp [exC]
  · intro t ht x hx
    rcases (hmem t ht x hx).2 with rfl | rfl <;> simp [exC]
  · intro t ht x hx
    obtain ⟨rfl, rfl | rfl⟩ := hmem t ht x hx <;> exact ⟨exQ 2, rfl, rfl⟩

theorem exC_disjoint : Disjoint exC := List.pairwise_singleton _ _

theorem exC_slots : slots exC = [[(0, 1)], [(1, 1)], [(0, 0), (1, 0)]] := by decide +kernel

theorem exC_wf : ∀ c ∈ exC.comps, WF (exC.like c.1) ∧
    (∀ x ∈ (exC.like c.1).sources, (x.2.pars.map (·.name)).Nodup) ∧ Agree (exC.like c.1) := by
  intro c hc
  have : c = (0, [0]) ∨ c = (1, [0]) := by simpa [exC] using hc
  rcases this with rfl | rfl <;>
    exact ⟨⟨by simp [exC, exO], by simp [exC, exO]⟩, by simp [exC, exO],
      by simp [exC, exO, Agree, exQ]⟩

/-- The value of an object is the sum of its parameters; the derivatives tell the parameters
apart. -/
def exSt (a : Nat) : Stat Nat ℚ :=
  ⟨fun ps _ => (ps.map (·.value)).sum, fun _ _ i => 10 * a + i + 1⟩

example : value exC exSt = 14 := by
  rw [C21_value]
  simp [exC, exSt, exO, exQ]
  norm_num

example : getNumFreeParams exC = 3 := by
  rw [(C21_number exC exC_tidy (by simp [exC])).1, exC_slots]
  rfl

example (ps : List (Par Nat ℚ)) (h : getFreeParams exC = .ok ps) : ps[1]? = some (exQ 5) := by
  rw [C21_untied_entry exC exC_tidy (by simp [exC]) ps h 1 (1, 1) (by rw [exC_slots]; rfl)
    (by simp [exC])]
  rfl

/-- Two derivatives for the untied parameters and a sum for the group. -/
example : getFreeDerivs exC exSt = .ok [2, 12, 1 + 11] := by
  rw [C21_gradient exC exC_tidy exSt (by
    intro c hc
    have : c = (0, [0]) ∨ c = (1, [0]) := by simpa [exC] using hc
    rcases this with rfl | rfl <;> simp [exC, exO, exQ])]
  unfold gradient
  rw [exC_slots]
  simp [Spec.der, exSt]
  norm_num

example : findIndex exC 1 0 = some 2 :=
  (C21_find_index_partial exC exC_tidy exC_disjoint (by simp [exC, exQ]) (1, 0) 2).mpr
    ⟨[(0, 0), (1, 0)], by rw [exC_slots]; rfl, by simp⟩

/-- Both members of the group are set. -/
example : ∃ s', setFreeParamValues exC [7, 8, 9] = .ok s' () ∧
    getFreeParamValues s' = .ok [7, 8, 9] ∧
    (entry s' (0, 0)).map (fun p => p.value) = some 9 ∧
    (entry s' (1, 0)).map (fun p => p.value) = some 9 ∧
    (entry s' (1, 1)).map (fun p => p.value) = some 8 := by
  have e1 : (7 : ℚ) ≤ 10 := by norm_num
  have e2 : (8 : ℚ) ≤ 10 := by norm_num
  have e3 : (9 : ℚ) ≤ 10 := by norm_num
  obtain ⟨s', h1, h2, h3, h4, h5, h6, h7⟩ := C21_set_free exC exC_tidy exC_disjoint (by simp [exC])
    exC_wf (by
      intro t ht x hx p hp
      have : t = ⟨exQ 2, [(0, 0), (1, 0)]⟩ := by simpa [exC] using ht
      subst this
      have hx' : x = (0, 0) ∨ x = (1, 0) := by simpa using hx
      have : p = exQ 2 := by
        rcases hx' with rfl | rfl
        · exact (Option.some.inj hp).symm
        · exact (Option.some.inj hp).symm
      subst this
      exact ⟨rfl, rfl⟩) [exQ 3, exQ 5, exQ 2]
    (by simp [getFreeParams, exC, freeComps, untiedLoop, freeTied, untied, exO, exQ]) [7, 8, 9]
    (by simp [exQ, e1, e2, e3])
  exact ⟨s', h1, h2, h6 2 (0, 0) _ (by rw [exC_slots]; rfl) (by simp),
    h6 2 (1, 0) _ (by rw [exC_slots]; rfl) (by simp), h6 1 (1, 1) _ (by rw [exC_slots]; rfl) (by simp)⟩

/-- A fixed group before a free one. -/
def exCF : C Nat ℚ :=
  ⟨[(0, [0, 1])], [⟨{ exQ 2 with free := false }, [(0, 0)]⟩, ⟨exQ 3, [(0, 1)]⟩], [],
    fun _ => ⟨[(4, ⟨4, [{ exQ 2 with free := false }], none⟩), (5, ⟨5, [exQ 3], none⟩)],
      [{ exQ 2 with free := false }, exQ 3], [5]⟩⟩

theorem exCF_tidy : Tidy exCF := by
  refine ⟨by simp [exCF], ?_, by simp [exCF], by simp [exCF], by simp [exCF], ?_⟩
  · simp [exCF]
  · simp [exCF, entry, exQ]

example : ∃ k, findIndex exCF 0 1 = some k ∧ ∀ g, (slots exCF)[k]? = some g → (0, 1) ∉ g :=
  C21_find_index_violates exCF exCF_tidy (by simp [exCF, Spec.Disjoint]) [] [] []
    ⟨{ exQ 2 with free := false }, [(0, 0)]⟩ ⟨exQ 3, [(0, 1)]⟩ rfl rfl rfl (0, 1) (by simp)

/-- **C21** is false when a parameter is tied twice, which is accepted: setting the free
parameters succeeds and the values read back are the ones given, but the members of the first
group do not share one value. -/
theorem C21_overlap_violates : ∃ s s' : C Nat ℚ,
    tieParameters (exQ 0) exC [(0, 1), (1, 0)] = .ok s () ∧
    setFreeParamValues s [7, 8, 9] = .ok s' () ∧ getFreeParamValues s' = .ok [7, 8, 9] ∧
    (∃ t ∈ s'.ties, t.par.value = 8 ∧ (0, 0) ∈ t.members ∧ (1, 0) ∈ t.members) ∧
    (entry s' (0, 0)).map (fun p => p.value) = some 8 ∧
    (entry s' (1, 0)).map (fun p => p.value) = some 9 := by
  have e1 : (7 : ℚ) ≤ 10 := by norm_num
  have e2 : (8 : ℚ) ≤ 10 := by norm_num
  have e3 : (9 : ℚ) ≤ 10 := by norm_num
  simp [tieParameters, tieLoop, addParam, exC, exO, exQ, setList, StdMap.put, StdMap.find,
    setFreeParamValues, setComps, setUntied, untied, setTied, setMembers, Par.setValue, e1, e2, e3,
    syncParams, syncComps, setParams_, count, setParamsLoop, setParamsFun, funSetParam, sync, numFree, findFreeSrcs, vget, vset,
    collect, getFreeParamValues, getFreeParams, freeComps, untiedLoop, freeTied, entry, keep,
    Function.update]

/-- Two objects with one fixed parameter and one free one each. -/
def exCX : C Nat ℚ :=
  ⟨[(0, []), (1, [])], [], [], fun a =>
    ⟨[(4, ⟨4, [{ exQ (2 + a) with free := false }], none⟩), (5, ⟨5, [exQ 3], none⟩)],
      [{ exQ (2 + a) with free := false }, exQ 3], [5]⟩⟩

/-- **C21** is false for a group of fixed parameters: after the tie both members have the value of
the first, and after the next setting of the free parameters the second has its old value
again. -/
theorem C21_fixed_group_violates : ∃ s s' : C Nat ℚ,
    tieParameters (exQ 0) exCX [(0, 0), (1, 0)] = .ok s () ∧
    (entry s (0, 0)).map (fun p => p.value) = some 2 ∧
    (entry s (1, 0)).map (fun p => p.value) = some 2 ∧
    setFreeParamValues s [7, 8] = .ok s' () ∧
    (∃ t ∈ s'.ties, t.par.value = 2 ∧ t.members = [(0, 0), (1, 0)]) ∧
    (entry s' (0, 0)).map (fun p => p.value) = some 2 ∧
    (entry s' (1, 0)).map (fun p => p.value) = some 3 := by
  have e1 : (7 : ℚ) ≤ 10 := by norm_num
  have e2 : (8 : ℚ) ≤ 10 := by norm_num
  have e3 : (2 : ℚ) + 1 = 3 := by norm_num
  simp [tieParameters, tieLoop, addParam, exCX, exQ, setList, StdMap.put, StdMap.find,
    setFreeParamValues, setComps, setUntied, untied, setTied, setMembers, Par.setValue, e1, e2, e3,
    syncParams, syncComps, setParams_, count, setParamsLoop, setParamsFun, funSetParam, sync, numFree, findFreeSrcs, vget, vset,
    collect, entry, keep, Function.update]

/-- **C21** is false after adding a component again: it forgets which of its parameters are tied,
so a tied parameter also appears as a free parameter of its own. -/
theorem C21_readd_violates (s : C κ K) (h : Tidy s) (t : Tied κ K) (ht : t ∈ s.ties)
    (hf : t.par.free = true) (x : Nat × Nat) (hx : x ∈ t.members) :
    (slots s).length < getNumFreeParams (addComponent s x.1) := by
  have hsrt : StdMap.Sorted s.comps := h.keys
  obtain ⟨l, hl⟩ := StdMap.mem_keys_iff.mp (h.mem t ht x hx)
  obtain ⟨p, hp, hpf⟩ := h.free t ht x hx
  unfold getNumFreeParams addComponent
  simp only
  rw [countTied_eq, countComps_eq, Nat.zero_add, freeComps_length, freeTied_eq, slots_eq h]
  simp only [List.length_append, List.length_map]
  have hnd := nodup_untiedAll s.like s.comps h.keys
  have hsub : (x :: untiedAll s.like s.comps).Subperm
      (untiedAll s.like (StdMap.put s.comps x.1 [])) := by
    apply List.subperm_of_subset
    · refine List.nodup_cons.mpr ⟨fun hu => untied_not_tied h hu t ht hx, hnd⟩
    · intro y hy
      rcases List.mem_cons.mp hy with rfl | hy
      · refine mem_untiedAll.mpr ⟨(y.1, []), ?_, rfl, p, hp, hpf.trans hf, by simp⟩
        apply StdMap.find_some_mem
        rw [StdMap.find_put hsrt, if_pos rfl]
      · obtain ⟨c, hc, e, q, hq, hqf, hn⟩ := mem_untiedAll.mp hy
        by_cases hcx : c.1 = x.1
        · refine mem_untiedAll.mpr ⟨(x.1, []), ?_, ?_, q, hq, hqf, by simp⟩
          · apply StdMap.find_some_mem
            rw [StdMap.find_put hsrt, if_pos rfl]
          · simp only; rw [← hcx, e]
        · refine mem_untiedAll.mpr ⟨c, ?_, e, q, hq, hqf, hn⟩
          have : StdMap.find (StdMap.put s.comps x.1 []) c.1 = some c.2 := by
            rw [StdMap.find_put hsrt, if_neg hcx]
            exact StdMap.find_of_mem hsrt hc
          exact StdMap.find_some_mem this
  have := hsub.length_le
  simp only [List.length_cons] at this
  omega

example : 3 < getNumFreeParams (addComponent exC 1) := by
  have := C21_readd_violates exC exC_tidy ⟨exQ 2, [(0, 0), (1, 0)]⟩ (by simp [exC]) rfl (1, 0)
    (by simp)
  rwa [exC_slots] at this

end Verif.Comp2
