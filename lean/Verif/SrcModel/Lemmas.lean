import Verif.SrcModel.Spec
import Mathlib.Data.List.Forall2
import Mathlib.Data.List.Infix
set_option linter.unusedSectionVars false
set_option linter.unusedSimpArgs false
set_option linter.unusedVariables false
namespace Verif.SrcModel

variable {κ K : Type} [LinearOrder κ]

theorem collect_eq (m : List (κ × Src κ K)) : collect m = (m.map (fun x => x.2.pars)).flatten := by
  induction m with
  | nil => rfl
  | cons x m ih => obtain ⟨k, s⟩ := x; simp [collect, ih]

theorem numFree_pos (ps : List (Par κ K)) : 0 < numFree ps ↔ ps.any (·.free) = true := by
  unfold numFree
  rw [List.length_pos_iff_exists_mem]
  simp

theorem findFreeSrcs_eq (m : List (κ × Src κ K)) :
    findFreeSrcs m = (m.filter (fun x => x.2.pars.any (·.free))).map (·.1) := by
  induction m with
  | nil => rfl
  | cons x m ih =>
    obtain ⟨k, s⟩ := x
    simp only [findFreeSrcs, List.filter_cons]
    by_cases h : 0 < numFree s.pars
    · rw [if_pos h, if_pos ((numFree_pos _).1 h), ih]; rfl
    · rw [if_neg h, if_neg (fun hh => h ((numFree_pos _).2 hh)), ih]

theorem WF.sorted' {s : M κ K} (h : WF s) : StdMap.Sorted s.sources := by
  unfold StdMap.Sorted StdMap.keys
  rw [List.pairwise_map]; exact h.sorted

theorem wf_mk {s : M κ K} (h : StdMap.Sorted s.sources) (hn : ∀ x ∈ s.sources, x.2.name = x.1) : WF s := by
  refine ⟨?_, hn⟩
  unfold StdMap.Sorted StdMap.keys at h
  rw [List.pairwise_map] at h; exact h

theorem mirror_sync {s : M κ K} (h : WF s) : Mirror (sync s) :=
  ⟨⟨h.sorted, h.names⟩, collect_eq _, findFreeSrcs_eq _⟩

theorem sync_mirror {s : M κ K} (h : Mirror s) : sync s = s := by
  obtain ⟨src, p, f⟩ := s
  have h1 := h.param
  have h2 := h.freeSrcs
  simp only at h1 h2
  simp only [sync, collect_eq, findFreeSrcs_eq, h1, h2]

theorem sync_congr {s t : M κ K} (h : s.sources = t.sources) : sync s = sync t := by
  simp only [sync, h]

theorem mem_put {m : List (κ × Src κ K)} {k : κ} {a : Src κ K} {x : κ × Src κ K}
    (h : x ∈ StdMap.put m k a) : x = (k, a) ∨ x ∈ m := by
  induction m with
  | nil => simp [StdMap.put] at h; exact .inl h
  | cons y m ih =>
    obtain ⟨k', a'⟩ := y
    simp only [StdMap.put] at h
    split at h
    · simp only [List.mem_cons] at h ⊢; tauto
    · split at h
      · simp only [List.mem_cons] at h ⊢; tauto
      · simp only [List.mem_cons] at h ⊢
        rcases h with h | h
        · exact .inr (.inl h)
        · rcases ih h with h | h
          · exact .inl h
          · exact .inr (.inr h)

theorem mem_erase {m : List (κ × Src κ K)} {k : κ} {x : κ × Src κ K}
    (h : x ∈ StdMap.erase m k) : x ∈ m := by
  induction m with
  | nil => simp [StdMap.erase] at h
  | cons y m ih =>
    obtain ⟨k', a'⟩ := y
    simp only [StdMap.erase] at h
    split at h
    · exact List.mem_cons_of_mem _ h
    · rcases List.mem_cons.1 h with h | h
      · exact h ▸ List.mem_cons_self
      · exact List.mem_cons_of_mem _ (ih h)

theorem wf_put {s : M κ K} (h : WF s) {src : Src κ K} {n : κ} (hn : src.name = n) :
    WF { s with sources := StdMap.put s.sources n src } := by
  refine wf_mk (StdMap.sorted_put h.sorted' _ _) ?_
  intro x hx
  rcases mem_put hx with rfl | hx
  · exact hn
  · exact h.names x hx

theorem wf_erase {s : M κ K} (h : WF s) (n : κ) :
    WF { s with sources := StdMap.erase s.sources n } :=
  wf_mk (StdMap.sorted_erase h.sorted' _) fun x hx => h.names x (mem_erase hx)

theorem find_name {s : M κ K} (h : WF s) {n : κ} {src : Src κ K}
    (hf : StdMap.find s.sources n = some src) : src.name = n :=
  h.names _ (StdMap.find_some_mem hf)

theorem wf_setPars {s : M κ K} (h : WF s) {n : κ} {src : Src κ K}
    (hf : StdMap.find s.sources n = some src) (ps : List (Par κ K)) :
    WF { s with sources := setPars s.sources n src ps } :=
  wf_put (src := { src with pars := ps }) h (have := find_name h hf; this)

/-- Names and keys. -/
def ids (m : List (κ × Src κ K)) : List (κ × κ) := m.map (fun x => (x.1, x.2.name))

theorem wf_ids {s : M κ K} (h : WF s) {m : List (κ × Src κ K)} (he : ids m = ids s.sources) :
    WF { s with sources := m } := by
  constructor
  · have h1 : (ids s.sources).Pairwise (fun a b => a.1 < b.1) := by
      unfold ids; rw [List.pairwise_map]; exact h.sorted
    rw [← he] at h1
    unfold ids at h1; rw [List.pairwise_map] at h1; exact h1
  · intro x hx
    have : (x.1, x.2.name) ∈ ids m := List.mem_map.2 ⟨x, hx, rfl⟩
    rw [he] at this
    obtain ⟨y, hy, e⟩ := List.mem_map.1 this
    have := h.names y hy
    simp only [Prod.mk.injEq] at e
    rw [← e.1, ← e.2]; exact this

/-! ### Deleting all -/

theorem erase_head (k : κ) (a : Src κ K) (m : List (κ × Src κ K)) :
    StdMap.erase ((k, a) :: m) k = m := by simp [StdMap.erase]

theorem find_head (k : κ) (a : Src κ K) (m : List (κ × Src κ K)) :
    StdMap.find ((k, a) :: m) k = some a := by simp [StdMap.find]

theorem deleteLoop_all (m : List (κ × Src κ K)) : ∀ s : M κ K, s.sources = m →
    ∃ s', deleteLoop (StdMap.keys m) s = .ok s' () ∧ s'.sources = [] ∧ (m = [] → s' = s) ∧
      (m ≠ [] → s'.param = [] ∧ s'.freeSrcs = []) := by
  induction m with
  | nil => intro s hs; exact ⟨s, rfl, hs, fun _ => rfl, fun h => absurd rfl h⟩
  | cons x m ih =>
    obtain ⟨k, a⟩ := x
    intro s hs
    simp only [StdMap.keys, List.map_cons, deleteLoop, deleteSource, hs, find_head, erase_head]
    obtain ⟨s', h1, h2, h3, h4⟩ := ih (sync { s with sources := m }) rfl
    refine ⟨s', h1, h2, fun h => by simp at h, fun _ => ?_⟩
    by_cases hm : m = []
    · rw [h3 hm]; subst hm; exact ⟨rfl, rfl⟩
    · exact h4 hm

/-! ### Setting by name -/

theorem funSetParam_some {p : Par κ K} {ps ps' : List (Par κ K)} (h : funSetParam p ps = some ps') :
    funGetParam p.name ps' = some p ∧ (∀ n, n ≠ p.name → funGetParam n ps' = funGetParam n ps) ∧
      ps'.map (·.name) = ps.map (·.name) := by
  induction ps generalizing ps' with
  | nil => simp [funSetParam] at h
  | cons q qs ih =>
    simp only [funSetParam] at h
    by_cases hq : q.name = p.name
    · rw [if_pos hq] at h
      cases h
      refine ⟨by simp [funGetParam], fun n hn => ?_, by simp [hq]⟩
      simp only [funGetParam, hq, if_neg (Ne.symm hn)]
    · rw [if_neg hq] at h
      cases hf : funSetParam p qs with
      | none => rw [hf] at h; simp at h
      | some r =>
        rw [hf] at h
        simp only [Option.map_some, Option.some.injEq] at h
        subst h
        obtain ⟨h1, h2, h3⟩ := ih hf
        refine ⟨by simp only [funGetParam, if_neg hq, h1], fun n hn => ?_, by simp [h3]⟩
        simp only [funGetParam, h2 n hn]

theorem funSetParam_isSome {p : Par κ K} {ps : List (Par κ K)} :
    (∃ ps', funSetParam p ps = some ps') ↔ p.name ∈ ps.map (·.name) := by
  induction ps with
  | nil => simp [funSetParam]
  | cons q qs ih =>
    simp only [funSetParam, List.map_cons, List.mem_cons]
    by_cases hq : q.name = p.name
    · simp [hq]
    · rw [if_neg hq]
      constructor
      · rintro ⟨r, hr⟩
        cases hf : funSetParam p qs with
        | none => rw [hf] at hr; simp at hr
        | some t => exact .inr (ih.1 ⟨t, hf⟩)
      · rintro (h | h)
        · exact absurd h.symm hq
        · obtain ⟨t, ht⟩ := ih.2 h; exact ⟨q :: t, by rw [ht]; rfl⟩

/-! ### Setting by position -/

section Values
variable [Field K] [LinearOrder K] [IsStrictOrderedRing K]

theorem setValue_some {p p' : Par κ K} {v : K} (h : p.setValue v = some p') :
    p'.shape = p.shape ∧ p'.value = v ∧ p'.name = p.name := by
  unfold Par.setValue at h
  by_cases hb : p.lo ≤ v ∧ v ≤ p.hi
  · rw [if_pos hb] at h; cases h; exact ⟨rfl, rfl, rfl⟩
  · rw [if_neg hb] at h; cases h

/-- The value fits the bounds. -/
def Fits (p : Par κ K) (v : K) : Prop := p.lo ≤ v ∧ v ≤ p.hi

/-- What a value setting may change. -/
def Same (onlyFree : Bool) (p p' : Par κ K) : Prop :=
  p'.shape = p.shape ∧ (onlyFree = true → p.free = false → p' = p)

theorem sel_nil (f : Bool) : sel f ([] : List (Par κ K)) = [] := by cases f <;> rfl

theorem sel_append (f : Bool) (a b : List (Par κ K)) : sel f (a ++ b) = sel f a ++ sel f b := by
  cases f <;> simp [sel]

theorem sel_cons_skip {f : Bool} {p : Par κ K} {ps : List (Par κ K)} (h : (f && !p.free) = true) :
    sel f (p :: ps) = sel f ps := by
  cases f <;> simp_all [sel]

theorem sel_cons_take {f : Bool} {p : Par κ K} {ps : List (Par κ K)} (h : ¬ (f && !p.free) = true) :
    sel f (p :: ps) = p :: sel f ps := by
  cases f <;> simp_all [sel]

theorem count_eq (f : Bool) (ps : List (Par κ K)) : count f ps = (sel f ps).length := by
  cases f <;> rfl

theorem funSetValues_ok (f : Bool) (r : List K) : ∀ (ps : List (Par κ K)) (vs : List K),
    List.Forall₂ Fits (sel f ps) vs →
    ∃ ps', funSetValues f ps (vs ++ r) = .ok ps' r ∧ List.Forall₂ (Same f) ps ps' ∧
      (sel f ps').map (·.value) = vs := by
  intro ps
  induction ps with
  | nil =>
    intro vs h
    rw [sel_nil] at h; cases h
    exact ⟨[], rfl, .nil, by rw [sel_nil]; rfl⟩
  | cons p ps ih =>
    intro vs h
    by_cases hc : (f && !p.free) = true
    · rw [sel_cons_skip hc] at h
      obtain ⟨ps', h1, h2, h3⟩ := ih vs h
      refine ⟨p :: ps', ?_, .cons ⟨rfl, fun _ _ => rfl⟩ h2, by rw [sel_cons_skip hc]; exact h3⟩
      simp only [funSetValues, if_pos hc, h1]
    · rw [sel_cons_take hc] at h
      cases h with
      | cons hb ht =>
        rename_i v vs
        obtain ⟨ps', h1, h2, h3⟩ := ih vs ht
        have hsv : p.setValue v = some { p with value := v } := if_pos hb
        refine ⟨{ p with value := v } :: ps', ?_, .cons ⟨rfl, ?_⟩ h2, ?_⟩
        · simp only [funSetValues, if_neg hc, List.cons_append, hsv, h1]
        · intro h1 h2; simp [h1, h2] at hc
        · rw [sel_cons_take (by exact hc)]; simp [h3]

theorem forall₂_append_left {α β : Type} {R : α → β → Prop} {a b : List α} {l : List β}
    (h : List.Forall₂ R (a ++ b) l) : ∃ l1 l2, l = l1 ++ l2 ∧ List.Forall₂ R a l1 ∧ List.Forall₂ R b l2 := by
  induction a generalizing l with
  | nil => exact ⟨[], l, rfl, .nil, h⟩
  | cons x a ih =>
    cases h with
    | cons h1 h2 =>
      obtain ⟨l1, l2, e, h3, h4⟩ := ih h2
      exact ⟨_ :: l1, l2, by rw [e]; rfl, .cons h1 h3, h4⟩

/-- Two maps with the same sources up to parameters. -/
def SameSrc (R : Par κ K → Par κ K → Prop) (x y : κ × Src κ K) : Prop :=
  y.1 = x.1 ∧ y.2.name = x.2.name ∧ y.2.inner = x.2.inner ∧ List.Forall₂ R x.2.pars y.2.pars

theorem setLoop_ok (f : Bool) (r : List K) : ∀ (m : List (κ × Src κ K)) (vs : List K),
    List.Forall₂ Fits (sel f (collect m)) vs →
    ∃ m', setLoop f m (vs ++ r) = .ok m' r ∧ List.Forall₂ (SameSrc (Same f)) m m' ∧
      (sel f (collect m')).map (·.value) = vs := by
  intro m
  induction m with
  | nil =>
    intro vs h
    simp only [collect, sel_nil] at h; cases h
    exact ⟨[], rfl, .nil, by simp only [collect, sel_nil]; rfl⟩
  | cons x m ih =>
    obtain ⟨k, s⟩ := x
    intro vs h
    simp only [collect, sel_append] at h
    obtain ⟨v1, v2, rfl, h1, h2⟩ := forall₂_append_left h
    obtain ⟨ps', a1, a2, a3⟩ := funSetValues_ok f (v2 ++ r) s.pars v1 h1
    obtain ⟨m', b1, b2, b3⟩ := ih v2 h2
    refine ⟨(k, { s with pars := ps' }) :: m', ?_, .cons ⟨rfl, rfl, rfl, a2⟩ b2, ?_⟩
    · rw [List.append_assoc]
      simp only [setLoop, a1, b1]
    · simp only [collect, sel_append, List.map_append, a3, b3]

theorem funSetValues_ids (f : Bool) : ∀ (m : List (κ × Src κ K)) (vs : List K),
    match setLoop f m vs with
    | .ok m' _ => ids m' = ids m
    | .throws m' => ids m' = ids m
    | .ub => True := by
  intro m
  induction m with
  | nil => intro vs; simp [setLoop]
  | cons x m ih =>
    obtain ⟨k, s⟩ := x
    intro vs
    simp only [setLoop]
    cases hs : funSetValues f s.pars vs with
    | ub => simp
    | throws ps => simp [ids]
    | ok ps r =>
      have := ih r
      simp only
      cases hl : setLoop f m r with
      | ub => simp
      | throws m' => rw [hl] at this; simp only [ids, List.map_cons] at this ⊢; rw [this]
      | ok m' r' => rw [hl] at this; simp only [ids, List.map_cons] at this ⊢; rw [this]

theorem setParamsLoop_ids (f : Bool) : ∀ (m : List (κ × Src κ K)) (vs : List (Par κ K)),
    match setParamsLoop f m vs with
    | .ok m' _ => ids m' = ids m
    | .throws m' => ids m' = ids m
    | .ub => True := by
  intro m
  induction m with
  | nil => intro vs; simp [setParamsLoop]
  | cons x m ih =>
    obtain ⟨k, s⟩ := x
    intro vs
    simp only [setParamsLoop]
    cases hs : setParamsFun (count f s.pars) s.pars vs with
    | ub => simp
    | throws ps => simp [ids]
    | ok ps r =>
      have := ih r
      simp only
      cases hl : setParamsLoop f m r with
      | ub => simp
      | throws m' => rw [hl] at this; simp only [ids, List.map_cons] at this ⊢; rw [this]
      | ok m' r' => rw [hl] at this; simp only [ids, List.map_cons] at this ⊢; rw [this]

/-! ### One step -/

/-- Operations that go through the model (not behind its back). -/
def Op.viaModel : Op κ K → Prop
  | .direct _ _ => False
  | _ => True

theorem deleteAll_ok (s : M κ K) (h : WF s) : ∃ s', deleteAllSources s = .ok s' () ∧ s'.sources = [] ∧
    s'.param = [] ∧ (Mirror s → Mirror s') ∧ (s.sources ≠ [] → Mirror s') := by
  unfold deleteAllSources getSrcNames
  obtain ⟨s', h1, h2, h3, h4⟩ := deleteLoop_all s.sources s rfl
  rw [h1]
  have hw : ∀ t : M κ K, t.sources = [] → WF t := fun t ht => ⟨by rw [ht]; exact .nil, by rw [ht]; simp⟩
  refine ⟨_, rfl, h2, rfl, fun hm => ?_, fun hm => ?_⟩
  · refine ⟨hw _ h2, by simp [h2], ?_⟩
    by_cases he : s.sources = []
    · have := hm.freeSrcs
      rw [he] at this
      rw [h3 he]; simp only [he]; exact this
    · simp only [h2]; exact (h4 he).2
  · exact ⟨hw _ h2, by simp [h2], by simp only [h2]; exact (h4 hm).2⟩

theorem wf_step {s : M κ K} (h : WF s) (op : Op κ K) :
    match step s op with
    | .ok s' _ => WF s' ∧ (op.viaModel → Mirror s → Mirror s') ∧
        (op.viaModel → op ≠ .deleteAll → Mirror s')
    | .throws s' => WF s' ∧ (s' = s ∨ ∃ f x, op = .setValues f x ∨ ∃ y, op = .setParams f y)
    | .ub => True := by
  have aux : ∀ t : M κ K, WF t → WF (sync t) ∧ (op.viaModel → Mirror s → Mirror (sync t)) ∧
      (op.viaModel → op ≠ .deleteAll → Mirror (sync t)) := fun t ht =>
    ⟨(mirror_sync ht).wf, fun _ _ => mirror_sync ht, fun _ _ => mirror_sync ht⟩
  have same : WF s ∧ (s = s ∨ ∃ f x, op = .setValues f x ∨ ∃ y, op = .setParams f y) := ⟨h, .inl rfl⟩
  have hsp : ∀ p spec n, match setParam s p spec n with
      | .ok s' _ => WF s' ∧ Mirror s'
      | .throws s' => s' = s
      | .ub => True := by
    intro p spec n
    unfold setParam
    cases hf : StdMap.find s.sources n with
    | none => rfl
    | some src =>
      simp only
      cases spec with
      | false => simp
      | true =>
        simp only [if_true]
        cases hg : funSetParam p src.pars with
        | none => rfl
        | some ps => exact ⟨(mirror_sync (wf_setPars h hf ps)).wf, mirror_sync (wf_setPars h hf ps)⟩
  cases op with
  | add src =>
    simp only [step, addSource]
    cases hf : StdMap.find s.sources src.name with
    | none => exact aux _ (wf_put h rfl)
    | some _ => exact same
  | delete n =>
    simp only [step, deleteSource]
    cases hf : StdMap.find s.sources n with
    | none => exact same
    | some src => exact aux _ (wf_erase h n)
  | deleteAll =>
    obtain ⟨s', h1, h2, h3, h4, h5⟩ := deleteAll_ok s h
    simp only [step, h1]
    exact ⟨⟨by rw [h2]; exact .nil, by rw [h2]; simp⟩, fun _ => h4, fun _ hh => absurd rfl hh⟩
  | setParam p spec n =>
    have := hsp p spec n
    simp only [step]
    cases hs : setParam s p spec n with
    | ok s' u => rw [hs] at this; exact ⟨this.1, fun _ _ => this.2, fun _ _ => this.2⟩
    | throws s' => rw [hs] at this; exact ⟨this ▸ h, .inl this⟩
    | ub => trivial
  | setTrueValue pn spec n v =>
    simp only [step, setParamTrueValue]
    cases hg : getParam s pn spec n with
    | none => exact same
    | some p =>
      simp only
      cases hv : p.setValue (v / p.scale) with
      | none => exact same
      | some p' =>
        simp only
        have := hsp p' spec n
        cases hs : setParam s p' spec n with
        | ok s' u => rw [hs] at this; exact aux _ this.1
        | throws s' => rw [hs] at this; exact ⟨this ▸ h, .inl this⟩
        | ub => trivial
  | setValues f vs =>
    simp only [step, setParamValues]
    by_cases hl : vs.length ≠ count f s.param
    · rw [if_pos hl]; exact same
    · rw [if_neg hl]
      have := funSetValues_ids f s.sources vs
      unfold setParamValues_
      cases hs : setLoop f s.sources vs with
      | ub => trivial
      | throws m => rw [hs] at this; exact ⟨wf_ids h this, .inr ⟨f, vs, .inl rfl⟩⟩
      | ok m r => rw [hs] at this; exact aux _ (wf_ids h this)
  | setParams f vs =>
    simp only [step, setParams_]
    by_cases hl : vs.length ≠ count f s.param
    · rw [if_pos hl]; exact same
    · rw [if_neg hl]
      have := setParamsLoop_ids f s.sources vs
      cases hs : setParamsLoop f s.sources vs with
      | ub => trivial
      | throws m => rw [hs] at this; exact ⟨wf_ids h this, .inr ⟨f, [], .inr ⟨vs, rfl⟩⟩⟩
      | ok m r => rw [hs] at this; exact aux _ (wf_ids h this)
  | direct n ps =>
    simp only [step]
    cases hf : StdMap.find s.sources n with
    | none => exact same
    | some src =>
      exact ⟨wf_setPars h hf ps, fun hh => absurd hh (by simp [Op.viaModel]),
        fun hh => absurd hh (by simp [Op.viaModel])⟩
  | sync => exact aux s h

end Values

end Verif.SrcModel
