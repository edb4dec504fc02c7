import Mathlib.Algebra.Order.Ring.Rat
import Mathlib.Algebra.Field.Rat
import Mathlib.Tactic.NormNum
import Verif.Summed.Lemmas

set_option linter.unusedSectionVars false
set_option linter.unusedSimpArgs false
set_option linter.unusedVariables false

/-! # Properties C20, C22 and C46: sum of likelihoods with tied parameters -/

namespace Verif.Summed

open SrcModel Spec Vec

variable {κ K : Type} [LinearOrder κ] [Field K] [LinearOrder K] [IsStrictOrderedRing K]

/-! ## C20: value and gradient -/

theorem valueLoop_eq : ∀ (cs : List (Stat κ K × M κ K)) (n : Nat) (v : K),
    valueLoop cs (decide (n = 0)) v = v + ((cs.zipIdx n).map (fun x =>
      x.1.1.val (x.1.2.sources.map (fun y => y.2.pars)).flatten (decide (x.2 = 0)))).sum := by
  intro cs
  induction cs with
  | nil => intro n v; simp [valueLoop]
  | cons c cs ih =>
    intro n v
    obtain ⟨st, m⟩ := c
    rw [valueLoop, List.zipIdx_cons, List.map_cons, List.sum_cons]
    have := ih (n + 1) (v + st.val (collect m.sources) (decide (n = 0)))
    have hd : decide (n + 1 = 0) = false := by simp
    rw [hd] at this
    rw [this, collect_eq, add_assoc]

/-- **C20**: the value is the sum over the components, the priors being counted once, for the
first component. -/
theorem C20_value (s : S κ K) (st : List (Stat κ K)) :
    value s st = ((st.zip s.comps).zipIdx.map (fun x =>
      x.1.1.val (x.1.2.sources.map (fun y => y.2.pars)).flatten (decide (x.2 = 0)))).sum := by
  have := valueLoop_eq (st.zip s.comps) 0 0
  rw [zero_add] at this
  exact this

/-- **C20**: the number of free parameters is the number of slots, and the list of free
parameters has that length. -/
theorem C20_number (s : S κ K) (h : Tidy s) (hc : s.comps ≠ []) :
    getNumFreeParams s = .ok (slots s).length ∧
    ∃ ps, getFreeParams s [] = .ok ps ∧ ps.length = (slots s).length := by
  have hlen : (untiedLoop s.tiedIdx 0 (pars s)).length + (tiedLoop s.ties).length =
      (slots s).length := by
    rw [slots_eq s h, tiedLoop_eq, untiedLoop_eq]
    simp
  cases hcs : s.comps with
  | nil => exact absurd hcs hc
  | cons m ms =>
    have hp : pars s = m.param := by unfold pars; rw [hcs]; rfl
    rw [hp] at hlen
    unfold getNumFreeParams getFreeParams
    rw [hcs]
    simp only [List.nil_append]
    rw [countTied_eq, countUntied_eq, Nat.zero_add, hlen]
    exact ⟨rfl, _, rfl, by rw [List.length_append]; exact hlen⟩

/-- **C20**, part: when every group of tied parameters is free and has a single member, in
particular without ties, the derivatives written into an empty vector are the gradient. -/
theorem C20_gradient_partial (s : S κ K) (h : Tidy s) (ha : Agree s) (hc : s.comps ≠ [])
    (hf : ∀ t ∈ s.ties, t.par.free = true) (h1 : ∀ t ∈ s.ties, t.members.length = 1)
    (st : List (Stat κ K)) : getFreeDerivs s st [] = .ok (gradient s st) := by
  obtain ⟨ds, hd, hl, hv⟩ := getFreeDerivs_exact h ha hf hc st []
  rw [hd]
  congr 1
  apply ext_val
  · rw [hl]; simp [gradient]
  · intro k hk
    have hk' : k < (slots s).length := hl ▸ hk
    have hg := List.getElem?_eq_getElem hk'
    rw [hv k _ hg, val_nil, zero_add, gradient, val, List.getElem?_map, hg]
    simp only [Option.map_some, Option.getD_some]
    have hgm := List.getElem_mem hk'
    generalize (slots s)[k] = g at hgm ⊢
    obtain ⟨i, rfl⟩ : ∃ i, g = [i] := by
      rw [slots_eq s h] at hgm
      rcases List.mem_append.mp hgm with hgm | hgm
      · obtain ⟨j, hj, rfl⟩ := List.mem_map.mp hgm
        exact ⟨j, rfl⟩
      · obtain ⟨t, ht, rfl⟩ := List.mem_map.mp hgm
        exact List.length_eq_one_iff.mp (h1 t (List.mem_filter.mp ht).1)
    simp [top]

/-- **C20**, part: with every group free, the derivatives of the parameters that are not tied
are right whatever the groups. -/
theorem C20_untied_partial (s : S κ K) (h : Tidy s) (ha : Agree s) (hc : s.comps ≠ [])
    (hf : ∀ t ∈ s.ties, t.par.free = true) (st : List (Stat κ K)) :
    ∃ ds, getFreeDerivs s st [] = .ok ds ∧ ds.length = (slots s).length ∧
      ∀ k i : Nat, (slots s)[k]? = some [i] → ds[k]? = some (Spec.der st s.comps i) := by
  obtain ⟨ds, hd, hl, hv⟩ := getFreeDerivs_exact h ha hf hc st []
  refine ⟨ds, hd, hl, ?_⟩
  intro k i hk
  have := hv k [i] hk
  rw [val_nil, zero_add] at this
  have hlt : k < ds.length := by rw [hl]; exact (List.getElem?_eq_some_iff.mp hk).1
  rw [getElem?_val hlt, this]
  simp [top]

/-- **C20** is false: for a group of two tied parameters the derivative returned is that with
respect to the one with the larger index alone, so it is wrong whenever the other derivative is
not zero. -/
theorem C20_tied_violates (s : S κ K) (h : Tidy s) (ha : Agree s) (hc : s.comps ≠ [])
    (hf : ∀ t ∈ s.ties, t.par.free = true) (st : List (Stat κ K)) (k i j : Nat)
    (hk : (slots s)[k]? = some [i, j]) (hij : i < j) (hne : Spec.der st s.comps i ≠ 0) :
    ∃ ds, getFreeDerivs s st [] = .ok ds ∧ ds[k]? = some (Spec.der st s.comps j) ∧
      ds ≠ gradient s st := by
  obtain ⟨ds, hd, hl, hv⟩ := getFreeDerivs_exact h ha hf hc st []
  have hlt : k < (slots s).length := (List.getElem?_eq_some_iff.mp hk).1
  have htop : top [i, j] = j := by
    simp only [top, List.foldr_cons, List.foldr_nil]
    omega
  have hdk : ds[k]? = some (Spec.der st s.comps j) := by
    have := hv k _ hk
    rw [val_nil, zero_add, htop] at this
    rw [getElem?_val (by rw [hl]; exact hlt), this]
  refine ⟨ds, hd, hdk, ?_⟩
  intro he
  rw [he, gradient, List.getElem?_map, hk] at hdk
  simp only [Option.map_some, List.map_cons, List.map_nil, List.sum_cons, List.sum_nil, add_zero,
    Option.some.injEq] at hdk
  exact hne (by simpa using hdk)

/-- **C20** is false: the derivatives are added to what the output vector already holds. -/
theorem C20_output_violates (s : S κ K) (h : Tidy s) (ha : Agree s) (hc : s.comps ≠ [])
    (hf : ∀ t ∈ s.ties, t.par.free = true) (st : List (Stat κ K)) (out : List K) (k : Nat)
    (hk : k < (slots s).length) (ho : val out k ≠ 0) :
    ∃ d d', getFreeDerivs s st [] = .ok d ∧ getFreeDerivs s st out = .ok d' ∧ d ≠ d' := by
  obtain ⟨d, hd, hl, hv⟩ := getFreeDerivs_exact h ha hf hc st []
  obtain ⟨d', hd', hl', hv'⟩ := getFreeDerivs_exact h ha hf hc st out
  refine ⟨d, d', hd, hd', ?_⟩
  rintro rfl
  have h1 := hv k _ (List.getElem?_eq_getElem hk)
  have h2 := hv' k _ (List.getElem?_eq_getElem hk)
  rw [h1, val_nil, zero_add] at h2
  exact ho (by simpa using h2.symm)

/-- **C20** is false: as soon as one group of tied parameters is fixed, the number of derivatives
returned is not the number of free parameters. -/
theorem C20_fixed_group_violates (s : S κ K) (h : Tidy s) (t : Tied κ K) (ht : t ∈ s.ties)
    (hfix : t.par.free = false) (st : List (Stat κ K)) (out ds : List K)
    (hd : getFreeDerivs s st out = .ok ds) : ds.length ≠ (slots s).length := by
  rw [getFreeDerivs_length h st out ds hd, slots_eq s h]
  unfold allSlots
  simp only [List.length_append, List.length_map]
  have : (s.ties.filter (fun t => t.par.free)).length < s.ties.length :=
    List.length_filter_lt_length_iff_exists.mpr ⟨t, ht, by simp [hfix]⟩
  omega

/-- **C20**: with every group free, `findIndex` of a parameter is the slot that drives it, and
none when no slot does. -/
theorem C20_find_index_partial (s : S κ K) (h : Tidy s) (hf : ∀ t ∈ s.ties, t.par.free = true)
    (i k : Nat) : findIndex s i = some k ↔ ∃ g, (slots s)[k]? = some g ∧ i ∈ g :=
  findIndex_slot h hf i k

/-- `findIndex` is wrong for a free group that comes after a fixed one: it is not the slot that
drives the parameter. -/
theorem C20_find_index_violates (s : S κ K) (h : Tidy s) (a b c : List (Tied κ K))
    (tf t : Tied κ K) (hs : s.ties = a ++ tf :: b ++ t :: c) (hfix : tf.par.free = false)
    (hfree : t.par.free = true) (i : Nat) (hi : i ∈ t.members) :
    ∃ k, findIndex s i = some k ∧ ∀ g, (slots s)[k]? = some g → i ∉ g := by
  have htm : t ∈ s.ties := by rw [hs]; simp
  set U := untiedIdxs s.tiedIdx 0 (pars s) with hU
  have hk : findIndex s i = some (U.length + (a ++ tf :: b).length) := by
    rw [findIndex_all h]
    refine ⟨t.members, ?_, hi⟩
    unfold allSlots
    rw [List.getElem?_append_right (by simp [← hU]), List.getElem?_map, hs]
    simp [← hU]
  refine ⟨_, hk, ?_⟩
  intro g hg hig
  rw [slots_eq s h, List.getElem?_append_right (by simp [← hU]), List.getElem?_map] at hg
  simp only [List.length_map, ← hU, Nat.add_sub_cancel_left] at hg
  obtain ⟨t', ht', rfl⟩ := Option.map_eq_some_iff.mp hg
  -- groups are disjoint, so the group found is `t`, but it stands earlier
  have hpw := h.disjoint
  rw [hs] at ht' hpw
  rw [List.filter_append] at ht'
  have hlt : ((a ++ tf :: b).filter (fun t => t.par.free)).length < (a ++ tf :: b).length :=
    List.length_filter_lt_length_iff_exists.mpr ⟨tf, by simp, by simp [hfix]⟩
  rw [List.getElem?_append_right hlt.le, List.filter_cons, if_pos hfree] at ht'
  have hpos : 0 < (a ++ tf :: b).length - ((a ++ tf :: b).filter (fun t => t.par.free)).length := by
    omega
  obtain ⟨q, hq⟩ : ∃ q, (a ++ tf :: b).length -
      ((a ++ tf :: b).filter (fun t => t.par.free)).length = q + 1 :=
    ⟨_, (Nat.succ_pred_eq_of_pos hpos).symm⟩
  rw [hq, List.getElem?_cons_succ] at ht'
  have hmem : t' ∈ c := (List.mem_filter.mp (List.mem_of_getElem? ht')).1
  have := (List.pairwise_cons.mp (List.pairwise_append.mp hpw).2.1).1 t' hmem i hi
  exact this hig

/-! ## C22: tying -/

/-- **C22**: tying existing parameters, each once and none of them tied before, succeeds; the
new group takes the attributes of the first and writes them over the others, everything else is
unchanged and the groups stay tidy. -/
theorem C22_tie_ok (dflt : Par κ K) (s : S κ K) (h : Tidy s) (hc : s.comps ≠ []) (i0 : Nat)
    (is : List Nat) (p0 : Par κ K) (hp0 : (pars s)[i0]? = some p0) (hnd : (i0 :: is).Nodup)
    (hin : ∀ i ∈ i0 :: is, i < (pars s).length ∧ i ∉ s.tiedIdx) :
    ∃ s', tieParameters dflt s (i0 :: is) = .ok s' () ∧ Tidy s' ∧
      s'.ties = s.ties ++ [⟨p0, i0 :: is⟩] ∧ s'.comps.tail = s.comps.tail ∧
      (∀ i, (pars s')[i]? = if i ∈ i0 :: is then some p0 else (pars s)[i]?) := by
  obtain ⟨m0, ms, hms⟩ : ∃ m0 ms, s.comps = m0 :: ms := by
    cases hh : s.comps with
    | nil => exact absurd hh hc
    | cons a b => exact ⟨a, b, rfl⟩
  have hp : pars s = m0.param := by unfold pars; rw [hms]; rfl
  rw [hp] at hp0 hin
  rw [List.nodup_cons] at hnd
  obtain ⟨ps', h1, h2, h3⟩ := tieLoop_ok p0 is m0.param ⟨p0, [i0]⟩ (s.tiedIdx ++ [i0]) hnd.2 (by
      intro i hi
      obtain ⟨a, b⟩ := hin i (List.mem_cons_of_mem _ hi)
      have hne : i ≠ i0 := fun e => hnd.1 (e ▸ hi)
      simp [a, b, hne]) (by simp) rfl
  have hloop : tieLoop (i0 :: is) m0.param ⟨dflt, []⟩ s.tiedIdx =
      .ok (ps', s.tiedIdx ++ i0 :: is) ⟨p0, i0 :: is⟩ := by
    rw [tieLoop, hp0]
    have hx : s.tiedIdx.contains i0 = false := by
      have := (hin i0 List.mem_cons_self).2
      simpa using this
    have hset : m0.param.set i0 p0 = m0.param := by
      obtain ⟨hlt, he⟩ := List.getElem?_eq_some_iff.mp hp0
      rw [← he]
      exact List.set_getElem_self _
    simp only [List.isEmpty_nil, ↓reduceIte, List.contains_nil, Bool.false_eq_true, List.nil_append,
      hx, hset]
    rw [h1]
    simp
  have hpars' : pars (⟨{ m0 with param := ps' } :: ms, s.ties ++ [⟨p0, i0 :: is⟩],
      s.tiedIdx ++ i0 :: is⟩ : S κ K) = ps' := rfl
  refine ⟨⟨{ m0 with param := ps' } :: ms, s.ties ++ [⟨p0, i0 :: is⟩], s.tiedIdx ++ i0 :: is⟩,
    ?_, ?_, rfl, ?_, ?_⟩
  · unfold tieParameters masterPars setMaster
    rw [hms]
    simp only [hloop]
  · have hget : ∀ i, ps'[i]? = if i ∈ i0 :: is then some p0 else m0.param[i]? := by
      intro i
      rw [h3 i]
      by_cases he : i ∈ is
      · simp [he]
      · by_cases hi0 : i = i0
        · subst hi0; simp [he, hp0]
        · simp [he, hi0]
    refine ⟨?_, ?_, ?_, ?_, ?_, ?_⟩
    · intro i
      simp only [List.mem_append, h.idx, List.mem_cons, List.not_mem_nil, or_false]
      constructor
      · rintro (⟨t, ht, hi⟩ | hi)
        · exact ⟨t, Or.inl ht, hi⟩
        · exact ⟨⟨p0, i0 :: is⟩, Or.inr rfl, List.mem_cons.mpr hi⟩
      · rintro ⟨t, ht | rfl, hi⟩
        · exact Or.inl ⟨t, ht, hi⟩
        · exact Or.inr (List.mem_cons.mp hi)
    · intro t ht
      rcases List.mem_append.mp ht with ht | ht
      · exact h.nonempty t ht
      · simp only [List.mem_singleton] at ht; subst ht; simp
    · intro t ht
      rcases List.mem_append.mp ht with ht | ht
      · exact h.nodup t ht
      · simp only [List.mem_singleton] at ht; subst ht
        exact List.nodup_cons.mpr hnd
    · refine List.pairwise_append.mpr ⟨h.disjoint, List.pairwise_singleton _ _, ?_⟩
      intro a ha b hb i hi
      simp only [List.mem_singleton] at hb
      subst hb
      intro hi'
      exact (hin i hi').2 ((h.idx i).mpr ⟨a, ha, hi⟩)
    · intro t ht i hi
      rw [hpars', h2]
      rcases List.mem_append.mp ht with ht | ht
      · have := h.range t ht i hi; rwa [hp] at this
      · simp only [List.mem_singleton] at ht; subst ht
        exact (hin i hi).1
    · intro t ht i hi p hpp
      rw [hpars', hget i] at hpp
      rcases List.mem_append.mp ht with ht | ht
      · have hni : i ∉ i0 :: is := by
          intro hi'
          exact (hin i hi').2 ((h.idx i).mpr ⟨t, ht, hi⟩)
        rw [if_neg hni, ← hp] at hpp
        exact h.free t ht i hi p hpp
      · simp only [List.mem_singleton] at ht; subst ht
        rw [if_pos hi] at hpp
        simp only [Option.some.injEq] at hpp
        rw [← hpp]
  · simp [hms]
  · intro i
    rw [hpars', h3 i, hp]
    by_cases he : i ∈ is
    · simp [he]
    · by_cases hi0 : i = i0
      · subst hi0; simp [he, hp0]
      · simp [he, hi0]

/-- **C22**, part: a tie rejected because of its first index leaves everything as it was. -/
theorem C22_first_partial (dflt : Par κ K) (s : S κ K) (hc : s.comps ≠ []) (i0 : Nat)
    (is : List Nat) (h : (pars s).length ≤ i0 ∨ i0 ∈ s.tiedIdx) :
    tieParameters dflt s (i0 :: is) = .throws s := by
  obtain ⟨m0, ms, hms⟩ : ∃ m0 ms, s.comps = m0 :: ms := by
    cases hh : s.comps with
    | nil => exact absurd hh hc
    | cons a b => exact ⟨a, b, rfl⟩
  have hp : pars s = m0.param := by unfold pars; rw [hms]; rfl
  have hself : ({ setMaster s m0.param with tiedIdx := s.tiedIdx } : S κ K) = s := by
    obtain ⟨cs, ts, ix⟩ := s
    simp only at hms
    subst hms
    rfl
  have hloop : tieLoop (i0 :: is) m0.param ⟨dflt, []⟩ s.tiedIdx = .throws (m0.param, s.tiedIdx) := by
    rw [tieLoop]
    cases hg : m0.param[i0]? with
    | none => rfl
    | some p =>
      have hx : s.tiedIdx.contains i0 = true := by
        rcases h with h | h
        · rw [hp] at h
          rw [List.getElem?_eq_none h] at hg
          cases hg
        · simpa using h
      have hset : m0.param.set i0 p = m0.param := by
        obtain ⟨hlt, he⟩ := List.getElem?_eq_some_iff.mp hg
        rw [← he]
        exact List.set_getElem_self _
      simp only [List.isEmpty_nil, ↓reduceIte, List.contains_nil, Bool.false_eq_true,
        List.nil_append, hx, hset]
  unfold tieParameters masterPars
  rw [hms]
  simp only [hloop]
  rw [hself]

/-- **C22** is false: when the second index is rejected (it is tied already, or does not exist),
the first one has silently become tied to nothing and is missing from the free parameters. -/
theorem C22_violates (dflt : Par κ K) (s : S κ K) (h : Tidy s) (hc : s.comps ≠ []) (i j : Nat)
    (p : Par κ K) (hp : (pars s)[i]? = some p) (hf : p.free = true) (hi : i ∉ s.tiedIdx)
    (hj : j ∈ s.tiedIdx ∨ (pars s).length ≤ j) :
    ∃ s' n, tieParameters dflt s [i, j] = .throws s' ∧
      getNumFreeParams s = .ok (n + 1) ∧ getNumFreeParams s' = .ok n := by
  obtain ⟨m0, ms, hms⟩ : ∃ m0 ms, s.comps = m0 :: ms := by
    cases hh : s.comps with
    | nil => exact absurd hh hc
    | cons a b => exact ⟨a, b, rfl⟩
  have hpp : pars s = m0.param := by unfold pars; rw [hms]; rfl
  rw [hpp] at hp
  have hset : m0.param.set i p = m0.param := by
    obtain ⟨hlt, he⟩ := List.getElem?_eq_some_iff.mp hp
    rw [← he]
    exact List.set_getElem_self _
  have hxi : s.tiedIdx.contains i = false := by simpa using hi
  obtain ⟨ps', hloop, hps'⟩ : ∃ ps', tieLoop [i, j] m0.param ⟨dflt, []⟩ s.tiedIdx =
      .throws (ps', s.tiedIdx ++ [i]) ∧ ∀ k, k ∉ s.tiedIdx → ps'[k]? = m0.param[k]? := by
    rw [tieLoop, hp]
    simp only [List.isEmpty_nil, ↓reduceIte, List.contains_nil, Bool.false_eq_true,
      List.nil_append, hxi, hset]
    rw [tieLoop]
    cases hg : m0.param[j]? with
    | none => exact ⟨m0.param, rfl, fun _ _ => rfl⟩
    | some q =>
      have hjt : j ∈ s.tiedIdx := by
        rcases hj with hj | hj
        · exact hj
        · rw [hpp] at hj
          rw [List.getElem?_eq_none hj] at hg; cases hg
      have hji : j ≠ i := fun e => hi (e ▸ hjt)
      have hcj : (s.tiedIdx ++ [i]).contains j = true := by simp [hjt]
      have hmj : ([i] : List Nat).contains j = false := by simp [hji]
      simp only [List.isEmpty_cons, Bool.false_eq_true, ↓reduceIte, hmj, hcj]
      refine ⟨_, rfl, ?_⟩
      intro k hk
      rw [List.getElem?_set]
      have : j ≠ k := fun e => hk (e ▸ hjt)
      simp [this]
  have hU : (untiedIdxs s.tiedIdx 0 m0.param).length =
      (untiedIdxs (s.tiedIdx ++ [i]) 0 ps').length + 1 := by
    have hmem : i ∈ untiedIdxs s.tiedIdx 0 m0.param := mem_untiedIdxs.mpr ⟨p, hp, hf, hi⟩
    have hperm : List.Perm (untiedIdxs (s.tiedIdx ++ [i]) 0 ps')
        ((untiedIdxs s.tiedIdx 0 m0.param).erase i) := by
      rw [List.perm_ext_iff_of_nodup (nodup_untiedIdxs _ _ _)
        ((nodup_untiedIdxs _ _ _).erase i)]
      intro k
      rw [(nodup_untiedIdxs _ _ _).mem_erase_iff, mem_untiedIdxs, mem_untiedIdxs]
      simp only [List.mem_append, List.mem_singleton, not_or]
      constructor
      · rintro ⟨q, h1, h2, h3, h4⟩
        exact ⟨h4, q, by rw [← hps' k h3]; exact h1, h2, h3⟩
      · rintro ⟨h4, q, h1, h2, h3⟩
        exact ⟨q, by rw [hps' k h3]; exact h1, h2, h3, h4⟩
    rw [hperm.length_eq, List.length_erase_of_mem hmem]
    have := List.length_pos_of_mem hmem
    omega
  refine ⟨{ setMaster s ps' with tiedIdx := s.tiedIdx ++ [i] },
    (untiedIdxs (s.tiedIdx ++ [i]) 0 ps').length + (tiedLoop s.ties).length, ?_, ?_, ?_⟩
  · unfold tieParameters masterPars
    rw [hms]
    simp only [hloop]
  · unfold getNumFreeParams
    rw [hms]
    simp only
    rw [countTied_eq, countUntied_eq, untiedLoop_eq, hU]
    congr 1
    omega
  · have hcs : (setMaster s ps').comps = { m0 with param := ps' } :: ms := by
      unfold setMaster
      rw [hms]
    have hts : (setMaster s ps').ties = s.ties := by
      unfold setMaster
      rw [hms]
    unfold getNumFreeParams
    simp only [hcs, hts]
    rw [countTied_eq, countUntied_eq, untiedLoop_eq]
    congr 1
    omega

/-! ## C46: setting the free parameters -/

theorem free_of_shape {a b : List (Par κ K)} (h : a.map Par.shape = b.map Par.shape) (i : Nat) :
    (a[i]?).map Par.shape = (b[i]?).map Par.shape := by
  rw [← List.getElem?_map, ← List.getElem?_map, h]

theorem untiedIdxs_shape {idx : List Nat} {a b : List (Par κ K)}
    (h : a.map Par.shape = b.map Par.shape) : untiedIdxs idx 0 a = untiedIdxs idx 0 b := by
  have hlen : a.length = b.length := by simpa using congrArg List.length h
  rw [untiedIdxs_eq, untiedIdxs_eq, hlen]
  congr 1
  apply List.filter_congr
  intro j _
  have := free_of_shape h j
  cases ha : a[j]? with
  | none => cases hb : b[j]? with
    | none => rfl
    | some q => rw [ha, hb] at this; cases this
  | some p => cases hb : b[j]? with
    | none => rw [ha, hb] at this; cases this
    | some q =>
      rw [ha, hb] at this
      simp only [Option.map_some, Option.some.injEq] at this
      have hfr : p.free = q.free := by
        unfold Par.shape at this
        simp only [Prod.mk.injEq] at this
        exact this.2.2.2.2
      simp [untied, hfr]

/-- **C46**: setting the free parameters to as many values as there are slots, each within the
bounds, succeeds; afterwards the free values read are those given, every parameter driven by a
slot has the value of the slot, all other parameters are unchanged, and the sources of every
component hold these parameters. -/
theorem C46_set_free (s : S κ K) (h : Tidy s) (ha : Agree s) (hc : s.comps ≠ [])
    (hw : ∀ m ∈ s.comps, WF m ∧ (∀ x ∈ m.sources, (x.2.pars.map (·.name)).Nodup) ∧
      m.param.length = (pars s).length)
    (hbd : ∀ t ∈ s.ties, ∀ i ∈ t.members, ∀ p, (pars s)[i]? = some p →
      p.lo = t.par.lo ∧ p.hi = t.par.hi)
    (ps : List (Par κ K)) (hps : getFreeParams s [] = .ok ps) (vs : List K)
    (hv : List.Forall₂ (fun p v => p.lo ≤ v ∧ v ≤ p.hi) ps vs) :
    ∃ s', setFreeParamValues s vs = .ok s' () ∧ getFreeParamValues s' = .ok vs ∧
      slots s' = slots s ∧
      (∀ m ∈ s'.comps, Mirror m ∧ m.param = pars s') ∧ s'.comps.length = s.comps.length ∧
      (∀ (k i : Nat) (g : List Nat), (slots s)[k]? = some g → i ∈ g →
        ((pars s')[i]?).map (fun p => p.value) = vs[k]?) ∧
      (∀ i, (∀ g ∈ slots s, i ∉ g) → (pars s')[i]? = (pars s)[i]?) := by
  obtain ⟨m0, ms, hms⟩ : ∃ m0 ms, s.comps = m0 :: ms := by
    cases hh : s.comps with
    | nil => exact absurd hh hc
    | cons a b => exact ⟨a, b, rfl⟩
  have hp : pars s = m0.param := by unfold pars; rw [hms]; rfl
  unfold getFreeParams at hps
  rw [hms] at hps
  simp only [List.nil_append, Res.ok.injEq] at hps
  subst hps
  obtain ⟨us, ws, rfl, hus, hws⟩ := forall₂_append_left hv
  obtain ⟨ps1, a1, a2, a3, a4⟩ := setUntied_ok s.tiedIdx ws m0.param 0 us hus
  have hmem_un : ∀ t ∈ s.ties, ∀ i ∈ t.members, ∃ p, m0.param[i]? = some p ∧ ps1[i]? = some p := by
    intro t ht i hi
    have hlt := h.range t ht i hi
    rw [hp] at hlt
    refine ⟨m0.param[i], List.getElem?_eq_getElem hlt, ?_⟩
    apply a4 i _ (List.getElem?_eq_getElem hlt)
    have : i ∈ s.tiedIdx := (h.idx i).mpr ⟨t, ht, hi⟩
    simp [untied, this]
  obtain ⟨ts2, ps2, b1, b2, b3, b4, b5, b6⟩ := setTied_ok [] s.ties ps1 ws h.disjoint (by
    intro t ht i hi
    obtain ⟨p, e1, e2⟩ := hmem_un t ht i hi
    obtain ⟨e3, e4⟩ := hbd t ht i hi p (by rw [hp]; exact e1)
    exact ⟨p, e2, e3, e4⟩) hws
  rw [List.append_nil] at b1
  have hshape : ps2.map Par.shape = m0.param.map Par.shape := b3.trans a2
  have hnf : ps2.map (fun p => (p.name, p.free)) = m0.param.map (fun p => (p.name, p.free)) := by
    have := congrArg (List.map (fun q : κ × K × K × K × Bool => (q.1, q.2.2.2.2))) hshape
    rw [List.map_map, List.map_map] at this
    exact this
  have hnames : ps2.map (·.name) = m0.param.map (·.name) := by
    have := congrArg (List.map Prod.fst) hnf
    rw [List.map_map, List.map_map] at this
    exact this
  have hlen2 : ps2.length = m0.param.length := by
    have := congrArg List.length hnames
    simpa using this
  have hagree : ∀ m ∈ s.comps, (m.sources.map (fun x => x.2.pars)).flatten.map (·.name) =
      m0.param.map (·.name) := by
    intro m hm
    have := congrArg (List.map Prod.fst) (ha m hm)
    rw [List.map_map, List.map_map, hp] at this
    exact this
  obtain ⟨cs, c1, c2, c3⟩ := syncLoop_ok ps2 ({ m0 with param := ps2 } :: ms) (by
    intro m hm
    rcases List.mem_cons.mp hm with rfl | hm
    · obtain ⟨w1, w2, w3⟩ := hw m0 (by rw [hms]; simp)
      refine ⟨⟨w1.sorted, w1.names⟩, w2, ?_, rfl⟩
      rw [hnames]
      exact (hagree m0 (by rw [hms]; simp)).symm
    · have hm' : m ∈ s.comps := by rw [hms]; exact List.mem_cons_of_mem _ hm
      obtain ⟨w1, w2, w3⟩ := hw m hm'
      refine ⟨w1, w2, ?_, ?_⟩
      · rw [hnames]; exact (hagree m hm').symm
      · rw [w3, hp, hlen2])
  have hsm : setMaster s ps2 = { s with comps := { m0 with param := ps2 } :: ms } := by
    unfold setMaster
    rw [hms]
  have hset : setFreeParamValues s (us ++ ws) = .ok { s with comps := cs, ties := ts2 } () := by
    unfold setFreeParamValues
    rw [hms]
    simp only [a1, b1, hsm]
    unfold syncParams
    simp only [c1]
  obtain ⟨m', ms', hcs⟩ : ∃ m' ms', cs = m' :: ms' := by
    cases cs with
    | nil => simp at c2
    | cons a b => exact ⟨a, b, rfl⟩
  have hpars' : pars ({ s with comps := cs, ties := ts2 } : S κ K) = ps2 := by
    unfold pars
    simp only [hcs, List.head?_cons, Option.map_some, Option.getD_some]
    exact (c3 m' (by rw [hcs]; simp)).2
  -- untied entries are not touched by the second loop
  have hun : untiedLoop s.tiedIdx 0 ps2 = untiedLoop s.tiedIdx 0 ps1 := by
    apply List.ext_getElem?
    intro k
    rw [untiedLoop_get, untiedLoop_get, untiedIdxs_shape b3]
    cases hk : (untiedIdxs s.tiedIdx 0 ps1)[k]? with
    | none => rfl
    | some j =>
      simp only [Option.bind_some, Nat.sub_zero]
      obtain ⟨q, _, _, hj⟩ := mem_untiedIdxs.mp (List.mem_of_getElem? hk)
      exact b6 j (fun t ht _ hjm => hj ((h.idx j).mpr ⟨t, ht, hjm⟩))
  have hms2 : ts2.map (fun t => (t.members, t.par.free)) =
      s.ties.map (fun t => (t.members, t.par.free)) := by
    have := congrArg (List.map (fun q : List Nat × (κ × K × K × K × Bool) =>
      (q.1, q.2.2.2.2.2))) b2
    rw [List.map_map, List.map_map] at this
    exact this
  have hfil : ∀ a b : List (Tied κ K), a.map (fun t => (t.members, t.par.free)) =
      b.map (fun t => (t.members, t.par.free)) →
      (a.filter (fun t => t.par.free)).map (fun t => t.members) =
      (b.filter (fun t => t.par.free)).map (fun t => t.members) := by
    intro a
    induction a with
    | nil => intro b hb; cases b <;> simp_all
    | cons x a ih =>
      intro b hb
      cases b with
      | nil => simp at hb
      | cons y b =>
        simp only [List.map_cons, List.cons.injEq, Prod.mk.injEq] at hb
        rw [List.filter_cons, List.filter_cons, hb.1.2]
        split
        · simp [hb.1.1, ih b hb.2]
        · exact ih b hb.2
  have hall : ∀ i, ts2.all (fun t => decide (i ∉ t.members)) =
      s.ties.all (fun t => decide (i ∉ t.members)) := by
    intro i
    have h1 : ∀ l : List (Tied κ K), l.all (fun t => decide (i ∉ t.members)) =
        (l.map (fun t => (t.members, t.par.free))).all (fun q => decide (i ∉ q.1)) := by
      intro l; rw [List.all_map]; rfl
    rw [h1, h1, hms2]
  have hslots : slots ({ s with comps := cs, ties := ts2 } : S κ K) = slots s := by
    unfold slots
    rw [hpars', hp, hlen2]
    simp only [hall, hfil _ _ hms2]
    congr 2
    apply List.filter_congr
    intro i _
    congr 1
    have hf : (ps2[i]?).map (fun p : Par κ K => p.free) = (m0.param[i]?).map (fun p => p.free) := by
      have := free_of_shape hshape i
      have := congrArg (Option.map (fun q : κ × K × K × K × Bool => q.2.2.2.2)) this
      rw [Option.map_map, Option.map_map] at this
      exact this
    rw [hf]
  refine ⟨_, hset, ?_, hslots, ?_, ?_, ?_, ?_⟩
  · unfold getFreeParamValues getFreeParams
    simp only [hcs, List.nil_append, Res.bind_ok]
    have : m'.param = ps2 := (c3 m' (by rw [hcs]; simp)).2
    rw [this, List.map_append, hun, a3, b4]
  · intro m hm
    rw [hpars']
    exact c3 m hm
  · show cs.length = s.comps.length
    rw [c2, hms]
    simp
  · intro k i g hk hi
    rw [hpars']
    rw [slots_eq s h, hp] at hk
    have hUlen : us.length = (untiedIdxs s.tiedIdx 0 m0.param).length := by
      rw [← untiedLoop_eq]
      exact hus.length_eq.symm
    by_cases hlt : k < us.length
    · rw [List.getElem?_append_left (by simpa [hUlen] using hlt), List.getElem?_map] at hk
      obtain ⟨j, hj, rfl⟩ := Option.map_eq_some_iff.mp hk
      simp only [List.mem_singleton] at hi
      subst hi
      rw [List.getElem?_append_left hlt, ← a3, ← hun, List.getElem?_map, untiedLoop_get,
        untiedIdxs_shape hshape, hj]
      simp
    · rw [List.getElem?_append_right (by simp [← hUlen]; omega), List.getElem?_map] at hk
      simp only [List.length_map, ← hUlen] at hk
      rw [List.getElem?_append_right (by omega), ← b4, tiedLoop_eq, List.map_map,
        List.getElem?_map]
      rw [← List.getElem?_map, ← hfil _ _ hms2, List.getElem?_map] at hk
      obtain ⟨t, ht, rfl⟩ := Option.map_eq_some_iff.mp hk
      rw [ht]
      have htm := List.mem_filter.mp (List.mem_of_getElem? ht)
      exact b5 t htm.1 htm.2 i hi
  · intro i hi
    rw [hpars', hp, b6 i (fun t ht hf him => hi t.members (by
      rw [slots_eq s h]
      exact List.mem_append_right _ (List.mem_map.mpr ⟨t, List.mem_filter.mpr ⟨ht, hf⟩, rfl⟩)) him)]
    cases hpi : m0.param[i]? with
    | none =>
      have hl1 : ps1.length = m0.param.length := by simpa using congrArg List.length a2
      rw [List.getElem?_eq_none_iff] at hpi ⊢
      omega
    | some p =>
      apply a4 i p hpi
      by_contra hu
      simp only [Nat.zero_add, Bool.not_eq_false, untied, Bool.and_eq_true, Bool.not_eq_true',
        List.contains_eq_mem, decide_eq_false_iff_not] at hu
      refine hi [i] ?_ (by simp)
      rw [slots_eq s h]
      refine List.mem_append_left _ (List.mem_map.mpr ⟨i, ?_, rfl⟩)
      rw [hp]
      exact mem_untiedIdxs.mpr ⟨p, hpi, hu.1, hu.2⟩

/-! ## Examples -/

/-- A parameter called 1, free, with bounds 0 and 10. -/
def exP (v : ℚ) : Par Nat ℚ := ⟨1, v, 1, 0, 10, true⟩

/-- Three sources with one parameter each, all called 1. -/
def exM : M Nat ℚ :=
  ⟨[(4, ⟨4, [exP 2], none⟩), (5, ⟨5, [exP 3], none⟩), (6, ⟨6, [exP 4], none⟩)],
    [exP 2, exP 3, exP 4], [4, 5, 6]⟩

/-- Two components, nothing tied. -/
def exS0 : S Nat ℚ := ⟨[exM, exM], [], []⟩

/-- Two components, the first and the third parameter tied. -/
def exS : S Nat ℚ :=
  ⟨[{ exM with param := [exP 2, exP 3, exP 2] }, exM], [⟨exP 2, [0, 2]⟩], [0, 2]⟩

/-- A component whose value is the sum of its parameters plus a prior. -/
def exStat : Stat Nat ℚ :=
  ⟨fun ps b => (ps.map (·.value)).sum + (if b then 100 else 0), fun _ b i => if b then 5 else 1 + i⟩

theorem exS0_tidy : Tidy exS0 :=
  ⟨by simp [exS0], by simp [exS0], by simp [exS0], by simp [exS0], by simp [exS0], by simp [exS0]⟩

theorem exS0_agree : Agree exS0 := by
  intro m hm
  have : m = exM := by simpa [exS0] using hm
  subst this
  simp [exM, exS0, pars, exP]

theorem exS_tie : tieParameters (exP 0) exS0 [0, 2] = .ok exS () := by
  simp [tieParameters, exS0, tieLoop, masterPars, exM, setMaster, exS]

theorem exS_tidy : Tidy exS := by
  obtain ⟨s', h1, h2, -⟩ := C22_tie_ok (exP 0) exS0 exS0_tidy (by simp [exS0]) 0 [2] (exP 2) rfl
    (by simp) (by simp [exS0, pars, exM])
  rw [exS_tie] at h1
  cases h1
  exact h2

theorem exS_agree : Agree exS := by
  intro m hm
  have : m = { exM with param := [exP 2, exP 3, exP 2] } ∨ m = exM := by simpa [exS] using hm
  rcases this with rfl | rfl <;> simp [exM, exS, pars, exP]

theorem exS_slots : slots exS = [[1], [0, 2]] := by decide +kernel

/-- The value of two components; the prior is in the first only. -/
example : value exS [exStat, exStat] = 118 := by
  rw [C20_value]
  simp [exS, exM, exStat, exP]
  norm_num

/-- Two free parameters out of three. -/
example : getNumFreeParams exS = .ok 2 := by
  have := (C20_number exS exS_tidy (by simp [exS])).1
  rwa [exS_slots] at this

/-- Without ties the gradient is right. -/
example : getFreeDerivs exS0 [exStat, exStat] [] = .ok (gradient exS0 [exStat, exStat]) :=
  C20_gradient_partial exS0 exS0_tidy exS0_agree (by simp [exS0]) (by simp [exS0]) (by simp [exS0]) _

theorem exS_der0 : Spec.der [exStat, exStat] exS.comps 0 ≠ 0 := by
  simp [Spec.der, exStat, exS]
  norm_num

/-- The first and third parameter are tied and the derivative is wrong. -/
example : ∃ ds, getFreeDerivs exS [exStat, exStat] [] = .ok ds ∧
    ds[1]? = some (Spec.der [exStat, exStat] exS.comps 2) ∧ ds ≠ gradient exS [exStat, exStat] :=
  C20_tied_violates exS exS_tidy exS_agree (by simp [exS]) (by simp [exS, exP]) _ 1 0 2
    (by rw [exS_slots]; rfl) (by decide) exS_der0

/-- The derivatives depend on what was in the output vector. -/
example : ∃ d d', getFreeDerivs exS [exStat, exStat] [] = .ok d ∧
    getFreeDerivs exS [exStat, exStat] [1, 1] = .ok d' ∧ d ≠ d' :=
  C20_output_violates exS exS_tidy exS_agree (by simp [exS]) (by simp [exS, exP]) _ [1, 1] 0
    (by rw [exS_slots]; decide) (by simp [val])

example : ∃ ds, getFreeDerivs exS [exStat, exStat] [] = .ok ds ∧
    ds[0]? = some (Spec.der [exStat, exStat] exS.comps 1) := by
  obtain ⟨ds, h1, h2, h3⟩ := C20_untied_partial exS exS_tidy exS_agree (by simp [exS])
    (by simp [exS, exP]) [exStat, exStat]
  exact ⟨ds, h1, h3 0 1 (by rw [exS_slots]; rfl)⟩

example : findIndex exS 2 = some 1 :=
  (C20_find_index_partial exS exS_tidy (by simp [exS, exP]) 2 1).mpr
    ⟨[0, 2], by rw [exS_slots]; rfl, by simp⟩

/-- As `exS`, with a fixed group before a free one. -/
def exF : S Nat ℚ :=
  ⟨[⟨[(4, ⟨4, [{ exP 2 with free := false }], none⟩), (5, ⟨5, [exP 3], none⟩)],
    [{ exP 2 with free := false }, exP 3], [5]⟩],
    [⟨{ exP 2 with free := false }, [0]⟩, ⟨exP 3, [1]⟩], [0, 1]⟩

theorem exF_tidy : Tidy exF := by
  refine ⟨?_, ?_, ?_, ?_, ?_, ?_⟩
  · simp [exF]
  · simp [exF]
  · simp [exF]
  · simp [exF]
  · simp [exF, pars]
  · simp [exF, pars, exP]

/-- One parameter is free, two derivatives are returned. -/
example : ∃ ds, getFreeDerivs exF [exStat] [] = .ok ds ∧ ds.length ≠ (slots exF).length := by
  have : ∃ ds, getFreeDerivs exF [exStat] [] = .ok ds := ⟨[5, 5], by
    simp [getFreeDerivs, exF, exP, indexLoop, findIndex, findUntied, findTied, untied, masterPars,
      StdMap.put, derivLoop, addDerivs, compDerivs, freePositions, exStat, collect, vget, vset, vresize]⟩
  obtain ⟨ds, hd⟩ := this
  exact ⟨ds, hd, C20_fixed_group_violates exF exF_tidy ⟨{ exP 2 with free := false }, [0]⟩
    (by simp [exF]) rfl _ _ ds hd⟩

example : ∃ k, findIndex exF 1 = some k ∧ ∀ g, (slots exF)[k]? = some g → 1 ∉ g :=
  C20_find_index_violates exF exF_tidy [] [] [] ⟨{ exP 2 with free := false }, [0]⟩ ⟨exP 3, [1]⟩
    rfl rfl rfl 1 (by simp)

/-- Tying with an index that does not exist loses a free parameter. -/
example : ∃ s' n, tieParameters (exP 0) exS0 [0, 8] = .throws s' ∧
    getNumFreeParams exS0 = .ok (n + 1) ∧ getNumFreeParams s' = .ok n :=
  C22_violates (exP 0) exS0 exS0_tidy (by simp [exS0]) 0 8 (exP 2) rfl rfl (by simp [exS0])
    (Or.inr (by simp [exS0, pars, exM]))

/-- Tying with an index that is tied already loses a free parameter. -/
example : ∃ s' n, tieParameters (exP 0) exS [1, 2] = .throws s' ∧
    getNumFreeParams exS = .ok (n + 1) ∧ getNumFreeParams s' = .ok n :=
  C22_violates (exP 0) exS exS_tidy (by simp [exS]) 1 2 (exP 3) rfl rfl (by simp [exS])
    (Or.inl (by simp [exS]))

example : tieParameters (exP 0) exS [2, 1] = .throws exS :=
  C22_first_partial (exP 0) exS (by simp [exS]) 2 [1] (Or.inr (by simp [exS]))

/-- Both tied parameters are set, in both components. -/
example : ∃ s', setFreeParamValues exS [7, 8] = .ok s' () ∧ getFreeParamValues s' = .ok [7, 8] ∧
    ((pars s')[0]?).map (fun p => p.value) = some 8 ∧
    ((pars s')[1]?).map (fun p => p.value) = some 7 ∧
    ((pars s')[2]?).map (fun p => p.value) = some 8 := by
  have e1 : (7 : ℚ) ≤ 10 := by norm_num
  have e2 : (8 : ℚ) ≤ 10 := by norm_num
  obtain ⟨s', h1, h2, h3, h4, h5, h6, h7⟩ := C46_set_free exS exS_tidy exS_agree (by simp [exS])
    (by
      intro m hm
      have : m = { exM with param := [exP 2, exP 3, exP 2] } ∨ m = exM := by simpa [exS] using hm
      rcases this with rfl | rfl <;>
        exact ⟨⟨by simp [exM], by simp [exM]⟩, by simp [exM], by simp [exM, exS, pars]⟩)
    (by simp [exS, pars, exP]) [exP 3, exP 2]
    (by simp [getFreeParams, exS, untiedLoop, tiedLoop, untied, exP]) [7, 8]
    (by simp [exP, e1, e2])
  exact ⟨s', h1, h2, h6 1 0 [0, 2] (by rw [exS_slots]; rfl) (by simp),
    h6 0 1 [1] (by rw [exS_slots]; rfl) (by simp), h6 1 2 [0, 2] (by rw [exS_slots]; rfl) (by simp)⟩

/-- Two sources with parameters of different names. -/
def exN : S Nat ℚ :=
  ⟨[⟨[(4, ⟨4, [exP 2], none⟩), (5, ⟨5, [{ exP 3 with name := 2 }], none⟩)],
    [exP 2, { exP 3 with name := 2 }], [4, 5]⟩], [], []⟩

/-- **C46** is false for a group of parameters with different names: the tie is accepted, and the
next setting of the free parameter to a value within the bounds fails. -/
theorem C46_names_violates : ∃ s' s'', tieParameters (exP 0) exN [0, 1] = .ok s' () ∧
    getFreeParams s' [] = .ok [exP 2] ∧ setFreeParamValues s' [7] = .throws s'' := by
  have e1 : (7 : ℚ) ≤ 10 := by norm_num
  simp [tieParameters, exN, tieLoop, masterPars, setMaster, getFreeParams, untiedLoop, tiedLoop,
    untied, exP, setFreeParamValues, setUntied, setTied, setMembers, Par.setValue, e1, syncParams,
    syncLoop, setParams_, count, setParamsLoop, setParamsFun, funSetParam, vget, vset]

end Verif.Summed
