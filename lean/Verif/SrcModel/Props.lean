import Verif.SrcModel.Lemmas
import Mathlib.Algebra.Order.Ring.Rat
import Mathlib.Algebra.Field.Rat
import Mathlib.Tactic.NormNum
set_option linter.unusedVariables false
set_option linter.unusedSimpArgs false
set_option linter.unusedSectionVars false
namespace Verif.SrcModel

variable {κ K : Type} [LinearOrder κ] [Field K] [LinearOrder K] [IsStrictOrderedRing K]

theorem mirror_empty : Mirror (M.empty : M κ K) :=
  ⟨⟨List.Pairwise.nil, by simp [M.empty]⟩, rfl, rfl⟩

/-! ### C18 -/

/-- Carried along a history. -/
structure Inv (s : M κ K) : Prop where
  wf : WF s
  none : s.sources = [] → Mirror s

theorem inv_step {s : M κ K} (h : Inv s) (op : Op κ K) :
    match step s op with
    | .ok s' _ => Inv s' ∧ (op.viaModel → Mirror s')
    | .throws s' => Inv s'
    | .ub => True := by
  have hw := wf_step h.wf op
  cases hs : step s op with
  | ub => trivial
  | ok s' u =>
    rw [hs] at hw
    have hv : op.viaModel → Mirror s' := by
      intro hv
      by_cases hd : op = .deleteAll
      · subst hd
        obtain ⟨t, h1, h2, h3, h4, h5⟩ := deleteAll_ok s h.wf
        simp only [step, h1] at hs
        cases hs
        by_cases he : s.sources = []
        · exact h4 (h.none he)
        · exact h5 he
      · exact hw.2.2 hv hd
    refine ⟨⟨hw.1, fun he => ?_⟩, hv⟩
    cases op with
    | direct n ps =>
      exfalso
      simp only [step] at hs
      cases hf : StdMap.find s.sources n with
      | none => rw [hf] at hs; cases hs
      | some src =>
        rw [hf] at hs
        cases hs
        have : n ∈ StdMap.keys (setPars s.sources n src ps) := by
          unfold setPars; rw [StdMap.keys_put]; exact .inl rfl
        simp only at he
        rw [he] at this; simp [StdMap.keys] at this
    | _ => exact hv trivial
  | throws s' =>
    rw [hs] at hw
    refine ⟨hw.1, fun he => ?_⟩
    rcases hw.2 with h' | ⟨f, x, h' | ⟨y, h'⟩⟩
    · rw [h'] at he ⊢; exact h.none he
    · subst h'
      simp only [step, setParamValues] at hs
      by_cases hl : x.length ≠ count f s.param
      · rw [if_pos hl] at hs; cases hs; exact h.none he
      · rw [if_neg hl] at hs
        unfold setParamValues_ at hs
        have hids := funSetValues_ids f s.sources x
        cases hm : setLoop f s.sources x with
        | ub => rw [hm] at hs; cases hs
        | ok m r => rw [hm] at hs; cases hs
        | throws m =>
          rw [hm] at hs hids; cases hs
          simp only at he
          subst he
          have e : s.sources = [] := by
            have hids : ids ([] : List (κ × Src κ K)) = ids s.sources := hids
            exact List.map_eq_nil_iff.1 hids.symm
          have := h.none e
          rw [e] at hm; simp [setLoop] at hm
    · subst h'
      simp only [step, setParams_] at hs
      by_cases hl : y.length ≠ count f s.param
      · rw [if_pos hl] at hs; cases hs; exact h.none he
      · rw [if_neg hl] at hs
        have hids := setParamsLoop_ids f s.sources y
        cases hm : setParamsLoop f s.sources y with
        | ub => rw [hm] at hs; cases hs
        | ok m r => rw [hm] at hs; cases hs
        | throws m =>
          rw [hm] at hs hids; cases hs
          simp only at he
          subst he
          have e : s.sources = [] := by
            have hids : ids ([] : List (κ × Src κ K)) = ids s.sources := hids
            exact List.map_eq_nil_iff.1 hids.symm
          rw [e] at hm; simp [setParamsLoop] at hm

theorem inv_run : ∀ (ops : List (Op κ K)) (s s' : M κ K), Inv s → run s ops = some s' → Inv s' := by
  intro ops
  induction ops with
  | nil => intro s s' h hr; simp only [run, Option.some.injEq] at hr; exact hr ▸ h
  | cons op ops ih =>
    intro s s' h hr
    have hi := inv_step h op
    simp only [run] at hr
    cases hs : step s op with
    | ub => rw [hs] at hr; cases hr
    | ok t u => rw [hs] at hr hi; exact ih t s' hi.1 hr
    | throws t => rw [hs] at hr hi; exact ih t s' hi hr

/-- C18 (partial): after any history, exceptions included, the sources are in strictly
increasing order of name, each under its own name; and if the last operation succeeded and
went through the model, the parameter list is the concatenation of the parameters of the
sources.  Missing: the same after a rejected setting of values (see `C18_violates`). -/
theorem C18_mirror_partial (ops : List (Op κ K)) (op : Op κ K) (s s' : M κ K)
    (hr : run M.empty ops = some s) :
    WF s ∧ (op.viaModel → step s op = .ok s' () → Mirror s') := by
  have hi := inv_run ops M.empty s ⟨mirror_empty.wf, fun _ => mirror_empty⟩ hr
  refine ⟨hi.wf, fun hv hs => ?_⟩
  have := inv_step hi op
  rw [hs] at this
  exact this.2 hv

/-- C18 (partial): operations other than the setting of value or parameter vectors, when
they throw, leave the model as it was. -/
theorem C18_refused_partial (s t : M κ K) (h : WF s) (op : Op κ K)
    (hop : (∀ f x, op ≠ .setValues f x) ∧ (∀ f x, op ≠ .setParams f x)) (hs : step s op = .throws t) :
    t = s := by
  have := wf_step h op
  rw [hs] at this
  rcases this.2 with h' | ⟨f, x, h' | ⟨y, h'⟩⟩
  · exact h'
  · exact absurd h' (hop.1 f x)
  · exact absurd h' (hop.2 f y)

/-- C18: adding a source under an existing name and deleting a missing one fail, and
nothing changes; otherwise they succeed. -/
theorem C18_add_delete_refused (s : M κ K) (src : Src κ K) (n : κ) :
    (src.name ∈ getSrcNames s → addSource s src = .throws s) ∧
    (src.name ∉ getSrcNames s → ∃ s', addSource s src = .ok s' ()) ∧
    (n ∉ getSrcNames s → deleteSource s n = .throws s) ∧
    (n ∈ getSrcNames s → ∃ s' x, deleteSource s n = .ok s' x) := by
  unfold getSrcNames addSource deleteSource
  refine ⟨fun h => ?_, fun h => ?_, fun h => ?_, fun h => ?_⟩
  · obtain ⟨a, ha⟩ := StdMap.mem_keys_iff.1 h; rw [ha]
  · rw [StdMap.find_none.2 h]; exact ⟨_, rfl⟩
  · rw [StdMap.find_none.2 h]
  · obtain ⟨a, ha⟩ := StdMap.mem_keys_iff.1 h; rw [ha]; exact ⟨_, _, rfl⟩

/-- C18: adding a source makes it present and leaves the others; deleting one removes it,
returns it and leaves the others. -/
theorem C18_add_delete_effect (s : M κ K) (h : WF s) (src : Src κ K) (n : κ) :
    (∀ s', addSource s src = .ok s' () → ∀ k, StdMap.find s'.sources k =
      if k = src.name then some src else StdMap.find s.sources k) ∧
    (∀ s' x, deleteSource s n = .ok s' x → StdMap.find s.sources n = some x ∧
      ∀ k, StdMap.find s'.sources k = if k = n then none else StdMap.find s.sources k) := by
  unfold addSource deleteSource
  refine ⟨fun s' hs k => ?_, fun s' x hs => ?_⟩
  · cases hf : StdMap.find s.sources src.name with
    | some a => rw [hf] at hs; cases hs
    | none => rw [hf] at hs; cases hs; exact StdMap.find_put h.sorted'
  · cases hf : StdMap.find s.sources n with
    | none => rw [hf] at hs; cases hs
    | some a => rw [hf] at hs; cases hs; exact ⟨rfl, fun k => StdMap.find_erase h.sorted'⟩

/-- C18: deleting a source just added gives it back and restores the model. -/
theorem C18_delete_added (s : M κ K) (h : Mirror s) (src : Src κ K) (s' : M κ K)
    (ha : addSource s src = .ok s' ()) : deleteSource s' src.name = .ok s src := by
  unfold addSource at ha
  cases hf : StdMap.find s.sources src.name with
  | some a => rw [hf] at ha; cases ha
  | none =>
    rw [hf] at ha
    cases ha
    have hs := h.wf.sorted'
    unfold deleteSource
    simp only [sync]
    rw [StdMap.find_put hs, if_pos rfl]
    simp only [StdMap.erase_put hs src hf, sync_mirror h]
    have := sync_mirror h
    unfold sync at this
    rw [this]

/-- C18: deleting all sources empties the model. -/
theorem C18_delete_all (ops : List (Op κ K)) (s : M κ K) (hr : run M.empty ops = some s) :
    deleteAllSources s = .ok M.empty () := by
  have hi := inv_run ops M.empty s ⟨mirror_empty.wf, fun _ => mirror_empty⟩ hr
  obtain ⟨t, h1, h2, h3, h4, h5⟩ := deleteAll_ok s hi.wf
  rw [h1]
  have hm : Mirror t := by
    by_cases he : s.sources = []
    · exact h4 (hi.none he)
    · exact h5 he
  obtain ⟨a, b, c⟩ := t
  have := hm.freeSrcs
  simp only at h2 h3 this
  subst h2 h3
  simp only [List.filter_nil, List.map_nil] at this
  subst this; rfl

/-- Two sources, out of order, one parameter free in each. -/
def exA : Src Nat ℚ := ⟨7, [⟨1, 5, 1, 0, 10, true⟩, ⟨2, 3, 1, 0, 10, false⟩], none⟩
/-- See `exA`. -/
def exB : Src Nat ℚ := ⟨4, [⟨1, 2, 1, 0, 10, true⟩], none⟩
/-- The model with both. -/
def exM : M Nat ℚ := ⟨[(4, exB), (7, exA)], exB.pars ++ exA.pars, [4, 7]⟩

theorem exM_run : run M.empty [.add exA, .add exB] = some exM := by
  simp [run, step, addSource, M.empty, StdMap.find, StdMap.put, sync, exA, exB, exM, collect,
    findFreeSrcs, numFree]

example : Mirror exM :=
  (C18_mirror_partial (κ := Nat) (K := ℚ) [.add exA] (.add exB) ⟨[(7, exA)], exA.pars, [7]⟩ exM
    (by simp [run, step, addSource, M.empty, StdMap.find, StdMap.put, sync, exA, collect,
      findFreeSrcs, numFree])).2 trivial
    (by simp [step, addSource, StdMap.find, StdMap.put, sync, exA, exB, exM, collect,
      findFreeSrcs, numFree])

/-- C18 fails after a rejected setting: the second value is out of bounds, the first has
been set in its source and the parameter list has not been updated. -/
theorem C18_violates : ∃ s : M Nat ℚ, run M.empty [.add exA, .add exB, .setValues true [9, 11]] = some s ∧
    ¬ Mirror s ∧ (collect s.sources).map (·.value) = [9, 5, 3] ∧ s.param.map (·.value) = [2, 5, 3] := by
  have h0 : run (M.empty : M Nat ℚ) [.add exA, .add exB, .setValues true [9, 11]] =
      run exM [.setValues true [9, 11]] := by
    simp [run, step, addSource, M.empty, StdMap.find, StdMap.put, sync, exA, exB, exM, collect,
      findFreeSrcs, numFree]
  rw [h0]
  refine ⟨⟨[(4, { exB with pars := [⟨1, 9, 1, 0, 10, true⟩] }), (7, exA)], exM.param, exM.freeSrcs⟩, ?_, ?_, ?_, ?_⟩
  · have e1 : ¬ ((11 : ℚ) ≤ 10) := by norm_num
    have e2 : (9 : ℚ) ≤ 10 := by norm_num
    simp [run, step, setParamValues, count, numFree, exM, exA, exB, setParamValues_, setLoop,
      funSetValues, Par.setValue, e1, e2]
  · intro h
    have := h.param
    simp [exM, exA, exB] at this
  · simp [collect, exA, exB]
  · simp [exM, exA, exB]

/-! ### C19 -/

/-- C19: values within bounds, one per (free) parameter, are taken: the values read back
are those set, everything but the values is as before, and with "free only" the fixed
parameters are as before. -/
theorem C19_values_roundtrip (f : Bool) (s : M κ K) (h : Mirror s) (vs : List K)
    (hfit : List.Forall₂ (fun p v => p.lo ≤ v ∧ v ≤ p.hi) (sel f s.param) vs) :
    ∃ s', setParamValues f s vs = .ok s' () ∧ Mirror s' ∧ getParamValues f s' = vs ∧
      getSrcNames s' = getSrcNames s ∧ s'.param.map Par.shape = s.param.map Par.shape ∧
      (f = true → s'.param.filter (fun p => !p.free) = s.param.filter (fun p => !p.free)) := by
  have hp : s.param = collect s.sources := by rw [collect_eq]; exact h.param
  rw [hp] at hfit
  obtain ⟨m', h1, h2, h3⟩ := setLoop_ok f [] s.sources vs hfit
  rw [List.append_nil] at h1
  have hids := funSetValues_ids f s.sources vs
  rw [h1] at hids
  have hw := wf_ids h.wf hids
  have hsame : List.Forall₂ (Same f) (collect s.sources) (collect m') := by
    clear h1 hids hw h3 hfit hp h
    generalize s.sources = m at h2
    induction h2 with
    | nil => exact .nil
    | cons ha _ ih => exact List.rel_append ha.2.2.2 ih
  refine ⟨sync { s with sources := m' }, ?_, mirror_sync hw, ?_, ?_, ?_, ?_⟩
  · unfold setParamValues setParamValues_
    rw [if_neg, h1]
    rw [not_not, count_eq, hp, hfit.length_eq]
  · unfold getParamValues
    have : (if f = true then (sync { s with sources := m' }).param.filter (·.free)
        else (sync { s with sources := m' }).param) = sel f (collect m') := by
      cases f <;> rfl
    rw [this, h3]
  · unfold getSrcNames StdMap.keys
    have := congrArg (List.map Prod.fst) hids
    simpa [ids, sync, Function.comp_def] using this
  · rw [hp]
    change (collect m').map _ = _
    clear h1 h2 h3 hids hw hfit hp h
    generalize collect s.sources = a at hsame
    generalize collect m' = b at hsame
    induction hsame with
    | nil => rfl
    | cons ha _ ih => simp only [List.map_cons, ih, ha.1]
  · rintro rfl
    rw [hp]
    change (collect m').filter _ = _
    clear h1 h2 h3 hids hw hfit hp h
    generalize collect s.sources = a at hsame
    generalize collect m' = b at hsame
    induction hsame with
    | nil => rfl
    | cons ha _ ih =>
      rename_i p p' l l' _
      have hfree : p'.free = p.free := by
        have := ha.1; simp only [Par.shape, Prod.mk.injEq] at this; exact this.2.2.2.2
      simp only [List.filter_cons, hfree, ih]
      cases hp : p.free with
      | true => simp
      | false => rw [ha.2 rfl hp]

/-- C19: the number of values consumed is exactly the number of (free) parameters. -/
theorem C19_values_consumed (f : Bool) (s : M κ K) (h : Mirror s) (vs rest : List K)
    (hfit : List.Forall₂ (fun p v => p.lo ≤ v ∧ v ≤ p.hi) (sel f s.param) vs) :
    ∃ s', setParamValues_ f s (vs ++ rest) = .ok s' rest ∧ vs.length = count f s.param := by
  have hp : s.param = collect s.sources := by rw [collect_eq]; exact h.param
  rw [hp] at hfit ⊢
  obtain ⟨m', h1, h2, h3⟩ := setLoop_ok f rest s.sources vs hfit
  exact ⟨_, by unfold setParamValues_; rw [h1], by rw [count_eq]; exact hfit.length_eq.symm⟩

example : ∃ s', setParamValues true exM [9, 8] = .ok s' () ∧ getParamValues true s' = [9, 8] ∧
    getParamValues false s' = [9, 8, 3] := by
  have e1 : (8 : ℚ) ≤ 10 := by norm_num
  have e2 : (9 : ℚ) ≤ 10 := by norm_num
  have hm : Mirror exM := (C18_mirror_partial (κ := Nat) (K := ℚ) [.add exA, .add exB] .sync exM (sync exM)
    exM_run).2 trivial rfl
  obtain ⟨s', h1, h2, h3, h4, h5, h6⟩ := C19_values_roundtrip true exM hm [9, 8]
    (by simp [sel, exM, exA, exB, e1, e2])
  refine ⟨s', h1, h3, ?_⟩
  simp [setParamValues, count, numFree, exM, exA, exB, setParamValues_, setLoop,
      funSetValues, Par.setValue, e1, e2] at h1
  subst h1
  simp [getParamValues, sync, collect]

/-- C19: a vector of the wrong length is refused and nothing changes. -/
theorem C19_wrong_length (f : Bool) (s : M κ K) (vs : List K) (h : vs.length ≠ (sel f s.param).length) :
    setParamValues f s vs = .throws s := by
  unfold setParamValues; rw [count_eq, if_pos h]

/-- C19: with values for every parameter no history makes the setting read outside the
vector. -/
theorem C19_no_overrun (f : Bool) (s : M κ K) (h : Mirror s) (vs : List K) :
    setParamValues f s vs ≠ .ub := by
  have hp : s.param = collect s.sources := by rw [collect_eq]; exact h.param
  have h1 : ∀ (ps : List (Par κ K)) (vs : List K), (sel f ps).length ≤ vs.length →
      funSetValues f ps vs ≠ .ub ∧
      ∀ ps' r, funSetValues f ps vs = .ok ps' r → vs.length = (sel f ps).length + r.length := by
    intro ps
    induction ps with
    | nil =>
      intro vs _
      refine ⟨by simp [funSetValues], fun ps' r hr => ?_⟩
      simp only [funSetValues] at hr; cases hr; simp [sel_nil]
    | cons p ps ih =>
      intro vs hl
      simp only [funSetValues]
      by_cases hc : (f && !p.free) = true
      · rw [sel_cons_skip hc] at hl ⊢
        rw [if_pos hc]
        have := ih vs hl
        cases hr : funSetValues f ps vs with
        | ub => exact absurd hr this.1
        | throws q => simp
        | ok q r =>
          refine ⟨by simp, fun ps' r' hh => ?_⟩
          cases hh; exact this.2 _ _ hr
      · rw [sel_cons_take hc] at hl ⊢
        rw [if_neg hc]
        cases vs with
        | nil => simp at hl
        | cons v vs =>
          simp only
          cases hv : p.setValue v with
          | none => simp
          | some p' =>
            simp only
            have := ih vs (by simpa using hl)
            cases hr : funSetValues f ps vs with
            | ub => exact absurd hr this.1
            | throws q => simp
            | ok q r =>
              refine ⟨by simp, fun ps' r' hh => ?_⟩
              cases hh
              have := this.2 _ _ hr
              simp only [List.length_cons]; omega
  have h2 : ∀ (m : List (κ × Src κ K)) (vs : List K), (sel f (collect m)).length ≤ vs.length →
      setLoop f m vs ≠ .ub := by
    intro m
    induction m with
    | nil => intro vs _; simp [setLoop]
    | cons x m ih =>
      obtain ⟨k, a⟩ := x
      intro vs hl
      simp only [collect, sel_append, List.length_append] at hl
      have := h1 a.pars vs (by omega)
      simp only [setLoop]
      cases hr : funSetValues f a.pars vs with
      | ub => exact absurd hr this.1
      | throws q => simp
      | ok q r =>
        have h4 := this.2 _ _ hr
        have h5 := ih r (by omega)
        simp only
        cases hq : setLoop f m r with
        | ub => exact absurd hq h5
        | throws _ => simp
        | ok _ _ => simp
  unfold setParamValues
  by_cases hl : vs.length ≠ count f s.param
  · rw [if_pos hl]; simp
  · rw [if_neg hl]
    rw [not_not, count_eq, hp] at hl
    have := h2 s.sources vs (by omega)
    unfold setParamValues_
    cases hq : setLoop f s.sources vs with
    | ub => exact absurd hq this
    | throws _ => simp
    | ok _ _ => simp

/-- C19: a parameter set by name reads back as set; the other parameters of the source and
the other sources are as before. -/
theorem C19_set_param (s : M κ K) (h : WF s) (p : Par κ K) (n : κ) :
    (∀ s', setParam s p true n = .ok s' () → getParam s' p.name true n = some p ∧
      (∀ q, q ≠ p.name → getParam s' q true n = getParam s q true n) ∧
      ∀ k, k ≠ n → StdMap.find s'.sources k = StdMap.find s.sources k) ∧
    ((∃ s', setParam s p true n = .ok s' ()) ↔ ∃ q, getParam s p.name true n = some q) := by
  have hgs : ∀ ps : List (Par κ K), (∃ q, funGetParam p.name ps = some q) ↔ p.name ∈ ps.map (·.name) := by
    intro ps
    induction ps with
    | nil => simp [funGetParam]
    | cons q qs ih =>
      simp only [funGetParam, List.map_cons, List.mem_cons]
      by_cases hq : q.name = p.name
      · simp [hq]
      · rw [if_neg hq, ih]
        exact ⟨.inr, fun hh => hh.resolve_left (fun e => hq e.symm)⟩
  constructor
  · intro s' hs
    unfold setParam at hs
    cases hf : StdMap.find s.sources n with
    | none => rw [hf] at hs; cases hs
    | some src =>
      rw [hf] at hs
      simp only [if_true] at hs
      cases hg : funSetParam p src.pars with
      | none => rw [hg] at hs; cases hs
      | some ps =>
        rw [hg] at hs
        cases hs
        obtain ⟨h1, h2, h3⟩ := funSetParam_some hg
        have hfind : ∀ k, StdMap.find (sync { s with sources := setPars s.sources n src ps }).sources k =
            if k = n then some { src with pars := ps } else StdMap.find s.sources k :=
          fun k => StdMap.find_put h.sorted'
        refine ⟨?_, fun q hq => ?_, fun k hk => by rw [hfind, if_neg hk]⟩
        · unfold getParam; rw [hfind, if_pos rfl]; exact h1
        · unfold getParam; rw [hfind, if_pos rfl, hf]; exact h2 q hq
  · unfold setParam getParam
    cases hf : StdMap.find s.sources n with
    | none => simp
    | some src =>
      simp only [if_true]
      rw [hgs, ← funSetParam_isSome]
      constructor
      · rintro ⟨s', hs⟩
        cases hg : funSetParam p src.pars with
        | none => rw [hg] at hs; cases hs
        | some ps => exact ⟨ps, rfl⟩
      · rintro ⟨ps, hps⟩
        rw [hps]; exact ⟨_, rfl⟩

/-- C19: setting the true value `v` gives the value `v / scale`, if that is within bounds. -/
theorem C19_set_true_value (s : M κ K) (h : WF s) (pn n : κ) (v : K) (s' : M κ K)
    (hs : setParamTrueValue s pn true n v = .ok s' ()) :
    ∃ p p', getParam s pn true n = some p ∧ getParam s' pn true n = some p' ∧
      p'.value = v / p.scale ∧ (p.scale ≠ 0 → p'.value * p'.scale = v) ∧ p'.shape = p.shape := by
  unfold setParamTrueValue at hs
  have hname : ∀ (ps : List (Par κ K)) p, funGetParam pn ps = some p → p.name = pn := by
    intro ps
    induction ps with
    | nil => intro p hp; simp [funGetParam] at hp
    | cons q qs ih =>
      intro p hp
      simp only [funGetParam] at hp
      by_cases hq : q.name = pn
      · rw [if_pos hq] at hp; cases hp; exact hq
      · rw [if_neg hq] at hp; exact ih p hp
  cases hg : getParam s pn true n with
  | none => rw [hg] at hs; cases hs
  | some p =>
    rw [hg] at hs
    simp only at hs
    cases hv : p.setValue (v / p.scale) with
    | none => rw [hv] at hs; cases hs
    | some p' =>
      rw [hv] at hs
      simp only at hs
      obtain ⟨e1, e2, e3⟩ := setValue_some hv
      have hpn : p.name = pn := by
        unfold getParam at hg
        cases hf : StdMap.find s.sources n with
        | none => rw [hf] at hg; cases hg
        | some src => rw [hf] at hg; exact hname _ _ hg
      cases hsp : setParam s p' true n with
      | ub => rw [hsp] at hs; cases hs
      | throws _ => rw [hsp] at hs; cases hs
      | ok t u =>
        rw [hsp] at hs
        cases hs
        refine ⟨p, p', rfl, ?_, e2, fun hsc => ?_, e1⟩
        · have := ((C19_set_param s h p' n).1 t hsp).1
          rw [e3, hpn] at this
          exact this
        · have : p'.scale = p.scale := by
            simp only [Par.shape, Prod.mk.injEq] at e1; exact e1.2.1
          rw [this, e2, div_mul_cancel₀ _ hsc]

/-- The hypotheses of the by-name theorems hold. -/
example : ∃ s', setParamTrueValue exM 2 true 7 6 = .ok s' () ∧
    (getParam s' 2 true 7).map (·.value) = some 6 := by
  have e1 : (6 : ℚ) ≤ 10 := by norm_num
  simp [setParamTrueValue, getParam, StdMap.find, StdMap.put, exM, exA, exB, funGetParam, Par.setValue, setParam,
    funSetParam, sync, setPars, e1]

theorem funSetParam_append {q p : Par κ K} {d t : List (Par κ K)} (hn : p.name = q.name)
    (hd : q.name ∉ d.map (·.name)) : funSetParam q (d ++ p :: t) = some (d ++ q :: t) := by
  induction d with
  | nil => simp [funSetParam, hn]
  | cons x d ih =>
    simp only [List.map_cons, List.mem_cons, not_or] at hd
    simp only [List.cons_append, funSetParam, if_neg (Ne.symm hd.1), ih hd.2]
    rfl

theorem setParamsFun_ok (f : Bool) (r : List (Par κ K)) : ∀ (t d qs : List (Par κ K)),
    ((d ++ t).map (·.name)).Nodup → qs.map (·.name) = (sel f t).map (·.name) →
    setParamsFun (count f t) (d ++ t) (qs ++ r) = .ok (d ++ replaceSel f t qs) r := by
  intro t
  induction t with
  | nil =>
    intro d qs _ hq
    rw [sel_nil] at hq
    have : qs = [] := by simpa using hq
    subst this
    rw [count_eq, sel_nil]; rfl
  | cons p t ih =>
    intro d qs hnd hq
    by_cases hc : (f && !p.free) = true
    · rw [sel_cons_skip hc] at hq
      rw [count_eq, sel_cons_skip hc, ← count_eq]
      have := ih (d ++ [p]) qs (by simpa using hnd) hq
      simp only [List.append_assoc, List.cons_append, List.nil_append] at this
      rw [this]
      simp only [replaceSel, if_pos hc]
    · rw [sel_cons_take hc] at hq
      rw [count_eq, sel_cons_take hc]
      cases qs with
      | nil => simp at hq
      | cons q qs =>
        simp only [List.map_cons, List.cons.injEq] at hq
        have hdisj : q.name ∉ d.map (·.name) := by
          rw [hq.1]
          intro hm
          rw [List.map_append, List.nodup_append] at hnd
          exact hnd.2.2 _ hm _ (by simp) rfl
        simp only [List.length_cons, List.cons_append, setParamsFun,
          funSetParam_append (p := p) (t := t) hq.1.symm hdisj]
        have := ih (d ++ [q]) qs (by simpa [hq.1] using hnd) hq.2
        simp only [List.append_assoc, List.cons_append, List.nil_append] at this
        rw [count_eq] at this
        rw [this]
        simp only [replaceSel, if_neg hc]

theorem replaceSel_append (f : Bool) : ∀ (a b qa qb : List (Par κ K)),
    qa.map (·.name) = (sel f a).map (·.name) →
    replaceSel f (a ++ b) (qa ++ qb) = replaceSel f a qa ++ replaceSel f b qb := by
  intro a
  induction a with
  | nil =>
    intro b qa qb h
    rw [sel_nil] at h
    have : qa = [] := by simpa using h
    subst this; rfl
  | cons p a ih =>
    intro b qa qb h
    by_cases hc : (f && !p.free) = true
    · rw [sel_cons_skip hc] at h
      simp only [List.cons_append, replaceSel, if_pos hc, ih b qa qb h]
    · rw [sel_cons_take hc] at h
      cases qa with
      | nil => simp at h
      | cons q qa =>
        simp only [List.map_cons, List.cons.injEq] at h
        simp only [List.cons_append, replaceSel, if_neg hc, ih b qa qb h.2]

theorem setParamsLoop_ok (f : Bool) : ∀ (m : List (κ × Src κ K)) (qs : List (Par κ K)),
    (∀ x ∈ m, (x.2.pars.map (·.name)).Nodup) →
    qs.map (·.name) = (sel f (collect m)).map (·.name) →
    ∃ m', setParamsLoop f m qs = .ok m' [] ∧ collect m' = replaceSel f (collect m) qs := by
  intro m
  induction m with
  | nil =>
    intro qs _ h
    simp only [collect, sel_nil] at h
    have : qs = [] := by simpa using h
    subst this
    exact ⟨[], rfl, rfl⟩
  | cons x m ih =>
    obtain ⟨k, a⟩ := x
    intro qs hnd h
    simp only [collect, sel_append, List.map_append] at h
    obtain ⟨q1, q2, rfl, h1, h2⟩ := List.map_eq_append_iff.1 h
    obtain ⟨m', e1, e2⟩ := ih q2 (fun x hx => hnd x (List.mem_cons_of_mem _ hx)) h2
    have := setParamsFun_ok f q2 a.pars [] q1 (hnd (k, a) List.mem_cons_self) h1
    simp only [List.nil_append] at this
    refine ⟨(k, { a with pars := replaceSel f a.pars q1 }) :: m', by simp only [setParamsLoop, this, e1], ?_⟩
    simp only [collect, e2, replaceSel_append f _ _ _ _ h1]

/-- C19: a vector of parameters named as the (free) parameters of the model, in order,
replaces them; the other parameters stay.  The names within one source are distinct. -/
theorem C19_params_roundtrip (f : Bool) (s : M κ K) (h : Mirror s) (qs : List (Par κ K))
    (hnd : ∀ x ∈ s.sources, (x.2.pars.map (·.name)).Nodup)
    (hq : qs.map (·.name) = (sel f s.param).map (·.name)) :
    ∃ s', setParams_ f s qs = .ok s' () ∧ Mirror s' ∧ s'.param = replaceSel f s.param qs ∧
      (f = false → s'.param = qs) := by
  have hp : s.param = collect s.sources := by rw [collect_eq]; exact h.param
  obtain ⟨m', h1, h2⟩ := setParamsLoop_ok f s.sources qs hnd (hp ▸ hq)
  have hids := setParamsLoop_ids f s.sources qs
  rw [h1] at hids
  have hlen : qs.length = (sel f s.param).length := by
    have := congrArg List.length hq; simpa using this
  have hall : ∀ (ps qs : List (Par κ K)), qs.length = ps.length → replaceSel false ps qs = qs := by
    intro ps
    induction ps with
    | nil => intro qs h; simp at h; subst h; rfl
    | cons p ps ih =>
      intro qs h
      cases qs with
      | nil => simp at h
      | cons q qs => simp only [replaceSel, Bool.false_and, Bool.false_eq_true, if_false, ih qs (by simpa using h)]
  refine ⟨sync { s with sources := m' }, ?_, mirror_sync (wf_ids h.wf hids), ?_, ?_⟩
  · unfold setParams_
    rw [if_neg (by rw [not_not, count_eq]; exact hlen), h1]
  · rw [hp]; exact h2
  · rintro rfl
    have : (sync { s with sources := m' }).param = replaceSel false s.param qs := by rw [hp]; exact h2
    rw [this]; exact hall _ _ hlen

example : ∃ s', setParams_ true exM [⟨1, 7, 2, 0, 9, false⟩, ⟨1, 6, 1, 0, 9, true⟩] = .ok s' () ∧
    s'.param = [⟨1, 7, 2, 0, 9, false⟩, ⟨1, 6, 1, 0, 9, true⟩, ⟨2, 3, 1, 0, 10, false⟩] := by
  have hm : Mirror exM := (C18_mirror_partial (κ := Nat) (K := ℚ) [.add exA, .add exB] .sync exM (sync exM)
    exM_run).2 trivial rfl
  obtain ⟨s', h1, h2, h3, h4⟩ := C19_params_roundtrip true exM hm
    [⟨1, 7, 2, 0, 9, false⟩, ⟨1, 6, 1, 0, 9, true⟩]
    (by intro x hx; simp [exM] at hx; rcases hx with rfl | rfl <;> simp [exA, exB])
    (by simp [sel, exM, exA, exB])
  exact ⟨s', h1, by rw [h3]; simp [exM, exA, exB, replaceSel]⟩

/-! ### C45 -/

/-- C45: a source present in one model and not in the other is moved, and nothing else
changes. -/
theorem C45_move_partial (a b : M κ K) (ha : WF a) (hb : WF b) (n : κ) (x : Src κ K)
    (hx : StdMap.find a.sources n = some x) (hn : n ∉ getSrcNames b) :
    ∃ a' b', moveSource a b n = .ok (a', b') () ∧ Mirror a' ∧ Mirror b' ∧
      (∀ k, StdMap.find a'.sources k = if k = n then none else StdMap.find a.sources k) ∧
      (∀ k, StdMap.find b'.sources k = if k = n then some x else StdMap.find b.sources k) := by
  have hxn := find_name ha hx
  unfold moveSource deleteSource addSource
  rw [hx]
  simp only [hxn, StdMap.find_none.2 hn]
  exact ⟨_, _, rfl, mirror_sync (wf_erase ha n), mirror_sync (wf_put hb hxn),
    fun k => StdMap.find_erase ha.sorted', fun k => StdMap.find_put hb.sorted'⟩

/-- C45 fails: if the other model has a source of that name, the move is refused and the
source is gone from both. -/
theorem C45_move_violates (a b : M κ K) (ha : WF a) (n : κ) (x : Src κ K)
    (hx : StdMap.find a.sources n = some x) (hn : n ∈ getSrcNames b) :
    ∃ a', moveSource a b n = .throws (a', b) ∧ n ∉ getSrcNames a' := by
  have hxn := find_name ha hx
  obtain ⟨y, hy⟩ := StdMap.mem_keys_iff.1 hn
  unfold moveSource deleteSource addSource
  rw [hx]
  simp only [hxn, hy]
  refine ⟨_, rfl, ?_⟩
  unfold getSrcNames
  rw [← StdMap.find_none]
  exact (StdMap.find_erase ha.sorted').trans (if_pos rfl)

/-- C45 fails: splitting a source that is not composite is refused and the source is gone. -/
theorem C45_split_violates (s : M κ K) (h : WF s) (n : κ) (x : Src κ K)
    (hx : StdMap.find s.sources n = some x) (hi : x.inner = none) :
    ∃ s', splitCompositeSource s n = .throws s' ∧ n ∉ getSrcNames s' := by
  unfold splitCompositeSource deleteSource
  rw [hx]
  simp only [hi]
  refine ⟨_, rfl, ?_⟩
  unfold getSrcNames
  rw [← StdMap.find_none]
  exact (StdMap.find_erase h.sorted').trans (if_pos rfl)

/-- C45 fails: merging with a misspelt second name is refused and the first source is gone. -/
theorem C45_merge_violates (s : M κ K) (h : WF s) (comp n n' : κ) (x : Src κ K) (spec : List (Par κ K))
    (hx : StdMap.find s.sources n = some x) (hn : n' ∉ getSrcNames s) :
    ∃ s', mergeSources s comp [n, n'] spec = .throws s' ∧ n ∉ getSrcNames s' := by
  have hne : n' ≠ n := by
    rintro rfl; exact hn (StdMap.mem_keys_of_find hx)
  obtain ⟨a', b', h1, h2, h3, h4, h5⟩ := C45_move_partial s M.empty h mirror_empty.wf n x hx
    (by simp [getSrcNames, M.empty, StdMap.keys])
  have hf : StdMap.find a'.sources n' = none := by
    rw [h4, if_neg hne]; exact StdMap.find_none.2 hn
  unfold mergeSources
  simp only [mergeLoop, h1]
  have : moveSource a' b' n' = .throws (a', b') := by
    unfold moveSource deleteSource; rw [hf]
  rw [this]
  refine ⟨_, rfl, ?_⟩
  unfold getSrcNames
  rw [← StdMap.find_none, h4, if_pos rfl]

example : ∃ s', mergeSources exM 1 [4, 5] [] = .throws s' ∧ 4 ∉ getSrcNames s' := by
  have hm : Mirror exM := (C18_mirror_partial (κ := Nat) (K := ℚ) [.add exA, .add exB] .sync exM (sync exM)
    exM_run).2 trivial rfl
  exact C45_merge_violates exM hm.wf 1 4 5 exB [] rfl (by decide)

theorem mergeLoop_ok : ∀ (ns : List κ) (s c : M κ K), WF s → WF c → ns.Nodup →
    (∀ n ∈ ns, n ∈ getSrcNames s ∧ n ∉ getSrcNames c) → (ns = [] → Mirror s ∧ Mirror c) →
    ∃ s' c', mergeLoop ns s c = .ok (s', c') () ∧ Mirror s' ∧ Mirror c' ∧
      (∀ k, StdMap.find s'.sources k = if k ∈ ns then none else StdMap.find s.sources k) ∧
      (∀ k, StdMap.find c'.sources k = if k ∈ ns then StdMap.find s.sources k else StdMap.find c.sources k) := by
  intro ns
  induction ns with
  | nil =>
    intro s c _ _ _ _ hm
    exact ⟨s, c, rfl, (hm rfl).1, (hm rfl).2, by simp, by simp⟩
  | cons n ns ih =>
    intro s c hs hc hnd hn hm
    rw [List.nodup_cons] at hnd
    obtain ⟨x, hx⟩ := StdMap.mem_keys_iff.1 (hn n List.mem_cons_self).1
    obtain ⟨a, b, h1, h2, h3, h4, h5⟩ := C45_move_partial s c hs hc n x hx (hn n List.mem_cons_self).2
    obtain ⟨s', c', g1, g2, g3, g4, g5⟩ := ih a b h2.wf h3.wf hnd.2 (by
      intro k hk
      have hkn : k ≠ n := fun e => hnd.1 (e ▸ hk)
      have := hn k (List.mem_cons_of_mem _ hk)
      unfold getSrcNames at this ⊢
      rw [StdMap.mem_keys_iff, ← StdMap.find_none] at this ⊢
      rw [h4, h5, if_neg hkn, if_neg hkn]; exact this) (fun _ => ⟨h2, h3⟩)
    refine ⟨s', c', by simp only [mergeLoop, h1, g1], g2, g3, fun k => ?_, fun k => ?_⟩
    · rw [g4, h4]
      by_cases h6 : k = n
      · simp [h6]
      · simp [h6]
    · rw [g5, h5, h4]
      by_cases h6 : k = n
      · subst h6; simp [hnd.1, hx]
      · simp [h6]

theorem splitLoop_eq : ∀ (ns : List κ) (c s : M κ K), splitLoop ns c s = mergeLoop ns c s := by
  intro ns
  induction ns with
  | nil => intro c s; rfl
  | cons n ns ih =>
    intro c s
    simp only [splitLoop, mergeLoop]
    cases moveSource c s n with
    | ok p u => obtain ⟨c', s'⟩ := p; exact ih c' s'
    | throws p => rfl
    | ub => rfl

/-- C45: merging distinct present sources under a name not otherwise in use succeeds; the
composite holds exactly these sources, the others stay; and splitting the composite again
restores the model and gives back the spectrum. -/
theorem C45_merge_split_partial (s : M κ K) (h : Mirror s) (comp : κ) (ns : List κ) (spec : List (Par κ K))
    (hnd : ns.Nodup) (hn : ∀ n ∈ ns, n ∈ getSrcNames s) (hc : comp ∈ getSrcNames s → comp ∈ ns) :
    ∃ s' inner, mergeSources s comp ns spec = .ok s' () ∧ Mirror s' ∧
      (∀ k, StdMap.find inner k = if k ∈ ns then StdMap.find s.sources k else none) ∧
      (∀ k, StdMap.find s'.sources k = if k = comp then some ⟨comp, spec, some inner⟩
        else if k ∈ ns then none else StdMap.find s.sources k) ∧
      splitCompositeSource s' comp = .ok s (StdMap.keys inner, spec) := by
  obtain ⟨a, c, h1, h2, h3, h4, h5⟩ := mergeLoop_ok ns s M.empty h.wf mirror_empty.wf hnd
    (fun n hn' => ⟨hn n hn', by simp [getSrcNames, M.empty, StdMap.keys]⟩) (fun _ => ⟨h, mirror_empty⟩)
  have hcomp : StdMap.find a.sources comp = none := by
    rw [h4]
    by_cases hc' : comp ∈ ns
    · rw [if_pos hc']
    · rw [if_neg hc', StdMap.find_none]; exact fun hh => hc' (hc hh)
  have h5' : ∀ k, StdMap.find c.sources k = if k ∈ ns then StdMap.find s.sources k else none := h5
  set x : Src κ K := ⟨comp, spec, some c.sources⟩ with hxdef
  have hadd : addSource a x = .ok (sync { a with sources := StdMap.put a.sources comp x }) () := by
    unfold addSource
    rw [show x.name = comp from rfl, hcomp]
  have hdel := C18_delete_added a h2 x _ hadd
  refine ⟨_, c.sources, ?_, mirror_sync (wf_put (src := x) h2.wf rfl), h5', fun k => ?_, ?_⟩
  · unfold mergeSources; rw [h1]; exact hadd
  · refine (StdMap.find_put h2.wf.sorted').trans ?_
    rw [h4]
  · unfold splitCompositeSource
    rw [show comp = x.name from rfl, hdel]
    simp only [hxdef]
    rw [splitLoop_eq]
    have hwc : WF (sync ⟨c.sources, [], []⟩ : M κ K) := ⟨h3.wf.sorted, h3.wf.names⟩
    have hmc : Mirror (sync ⟨c.sources, [], []⟩ : M κ K) := mirror_sync (s := ⟨c.sources, [], []⟩)
      ⟨h3.wf.sorted, h3.wf.names⟩
    have hkeys : ∀ k, k ∈ StdMap.keys c.sources ↔ k ∈ ns := by
      intro k
      rw [StdMap.mem_keys_iff]
      constructor
      · rintro ⟨y, hy⟩
        by_contra hh
        rw [h5', if_neg hh] at hy; cases hy
      · intro hk
        rw [h5', if_pos hk]
        exact StdMap.mem_keys_iff.1 (hn k hk)
    obtain ⟨c', s', g1, g2, g3, g4, g5⟩ := mergeLoop_ok (StdMap.keys c.sources)
      (sync ⟨c.sources, [], []⟩ : M κ K) a hwc h2.wf (StdMap.nodup_keys h3.wf.sorted') (by
        intro k hk
        refine ⟨hk, ?_⟩
        unfold getSrcNames
        rw [← StdMap.find_none, h4, if_pos ((hkeys k).1 hk)]) (fun _ => ⟨hmc, h2⟩)
    rw [g1]
    have hss : s'.sources = s.sources := by
      apply StdMap.ext g3.wf.sorted' h.wf.sorted'
      intro k
      rw [g5, h4]
      change (if k ∈ StdMap.keys c.sources then StdMap.find c.sources k else _) = _
      rw [h5']
      by_cases hk : k ∈ ns
      · simp only [hkeys, hk, if_true]
      · simp only [hkeys, hk, if_false]
    have : s' = s := by rw [← sync_mirror g3, ← sync_mirror h]; exact sync_congr hss
    rw [this]

example : ∃ s', mergeSources exM 1 [7, 4] [] = .ok s' () ∧ getSrcNames s' = [1] ∧
    splitCompositeSource s' 1 = .ok exM ([4, 7], []) := by
  have hm : Mirror exM := (C18_mirror_partial (κ := Nat) (K := ℚ) [.add exA, .add exB] .sync exM (sync exM)
    exM_run).2 trivial rfl
  obtain ⟨s', inner, h1, h2, h3, h4, h5⟩ := C45_merge_split_partial exM hm 1 [7, 4] []
    (by decide) (by decide) (by decide)
  refine ⟨s', h1, ?_⟩
  have e : mergeSources exM 1 [7, 4] [] = .ok ⟨[(1, ⟨1, [], some [(4, exB), (7, exA)]⟩)], [], []⟩ () := by
    simp [mergeSources, mergeLoop, moveSource, deleteSource, addSource, exM, exA, exB, StdMap.find,
      StdMap.erase, StdMap.put, sync, collect, findFreeSrcs, numFree, M.empty]
  rw [e] at h1
  cases h1
  refine ⟨rfl, ?_⟩
  have := h4 1
  simp [StdMap.find] at this
  rw [← this] at h5
  exact h5

end Verif.SrcModel
