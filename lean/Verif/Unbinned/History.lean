import Verif.Unbinned.Lemmas
set_option linter.unusedSectionVars false
set_option linter.unusedSimpArgs false
set_option linter.unusedVariables false
/-
Histories of the unbinned log-likelihood: which sources can be stale, and the best fit.
-/
namespace Verif.Unbinned

open Verif.SrcModel Verif.Accum Spec

variable {κ E G X : Type} [LinearOrder κ]

/-! ### Setting values -/

theorem same_refl (f : Bool) (p : Par κ ℝ) : Same f p p := ⟨rfl, fun _ _ => rfl⟩

theorem same_all (f : Bool) (ps : List (Par κ ℝ)) : List.Forall₂ (Same f) ps ps :=
  List.forall₂_same.mpr fun p _ => same_refl f p

theorem funSetValues_same (f : Bool) : ∀ (ps : List (Par κ ℝ)) (vs : List ℝ),
    match funSetValues f ps vs with
    | .ok ps' r => List.Forall₂ (Same f) ps ps' ∧ vs = (sel f ps').map (·.value) ++ r
    | .throws ps' => List.Forall₂ (Same f) ps ps'
    | .ub => True := by
  intro ps
  induction ps with
  | nil => intro vs; exact ⟨.nil, by simp [sel_nil]⟩
  | cons p ps ih =>
    intro vs
    by_cases hc : (f && !p.free) = true
    · have := ih vs
      simp only [funSetValues, hc, ↓reduceIte]
      cases hr : funSetValues f ps vs with
      | ub => trivial
      | throws ps' => rw [hr] at this; exact .cons (same_refl f p) this
      | ok ps' r => rw [hr] at this; exact ⟨.cons (same_refl f p) this.1, by rw [sel_cons_skip hc]; exact this.2⟩
    · cases vs with
      | nil => simp only [funSetValues, hc, ↓reduceIte, Bool.false_eq_true]
      | cons v vs =>
        have := ih vs
        simp only [funSetValues, hc, ↓reduceIte, Bool.false_eq_true]
        cases hp : p.setValue v with
        | none => exact same_all f _
        | some p' =>
          obtain ⟨k1, k2, k3⟩ := setValue_some hp
          have hpf : p'.free = p.free := by
            have := k1; simp only [Par.shape, Prod.mk.injEq] at this; exact this.2.2.2.2
          have hs : Same f p p' := ⟨k1, fun h1 h2 => by simp [h1, h2] at hc⟩
          simp only
          cases hr : funSetValues f ps vs with
          | ub => trivial
          | throws ps' => rw [hr] at this; exact .cons hs this
          | ok ps' r =>
            rw [hr] at this
            refine ⟨.cons hs this.1, ?_⟩
            rw [sel_cons_take (by rw [hpf]; exact hc), List.map_cons, List.cons_append, k2, ← this.2]

theorem setLoop_same (f : Bool) : ∀ (m : List (κ × Src κ ℝ)) (vs : List ℝ),
    match setLoop f m vs with
    | .ok m' r => List.Forall₂ (SameSrc (Same f)) m m' ∧ vs = (sel f (collect m')).map (·.value) ++ r
    | .throws m' => List.Forall₂ (SameSrc (Same f)) m m'
    | .ub => True := by
  intro m
  induction m with
  | nil => intro vs; exact ⟨.nil, by simp [collect, sel_nil]⟩
  | cons x m ih =>
    intro vs
    obtain ⟨k, src⟩ := x
    have hrest : List.Forall₂ (SameSrc (Same f)) m m :=
      List.forall₂_same.mpr fun x _ => ⟨rfl, rfl, rfl, same_all f _⟩
    have h1 := funSetValues_same f src.pars vs
    unfold setLoop
    cases hr : funSetValues f src.pars vs with
    | ub => trivial
    | throws ps => rw [hr] at h1; exact .cons ⟨rfl, rfl, rfl, h1⟩ hrest
    | ok ps r =>
      rw [hr] at h1
      have h2 := ih r
      simp only
      cases hl : setLoop f m r with
      | ub => trivial
      | throws m' => rw [hl] at h2; exact .cons ⟨rfl, rfl, rfl, h1.1⟩ h2
      | ok m' r' =>
        rw [hl] at h2
        refine ⟨.cons ⟨rfl, rfl, rfl, h1.1⟩ h2.1, ?_⟩
        rw [h1.2, h2.2, collect, sel_append, List.map_append, List.append_assoc]

/-- Setting the free values leaves a source alone which has no free parameter. -/
theorem same_fixed {m m' : List (κ × Src κ ℝ)} (h : List.Forall₂ (SameSrc (Same true)) m m') {n : κ}
    {src : Src κ ℝ} (hf : StdMap.find m' n = some src) (hx : Fixed src) : StdMap.find m n = some src := by
  have hpars : ∀ ps ps' : List (Par κ ℝ), List.Forall₂ (Same true) ps ps' → (∀ p ∈ ps', p.free = false) →
      ps' = ps := by
    intro ps ps' h
    induction h with
    | nil => intro _; rfl
    | @cons p q a b hpq _ ih =>
      intro hq
      have hqf := hq q List.mem_cons_self
      have hpf : p.free = false := by
        have := hpq.1; simp only [Par.shape, Prod.mk.injEq] at this; rw [← this.2.2.2.2]; exact hqf
      rw [hpq.2 rfl hpf, ih fun p hp => hq p (List.mem_cons_of_mem _ hp)]
  induction h with
  | nil => simp [StdMap.find] at hf
  | @cons x y a b hxy _ ih =>
    obtain ⟨k, s⟩ := x
    obtain ⟨k', s'⟩ := y
    obtain ⟨e1, e2, e3, e4⟩ := hxy
    simp only at e1 e2 e3 e4
    subst e1
    by_cases hk : k' = n
    · subst hk
      rw [find_head] at hf ⊢
      cases hf
      have := hpars _ _ e4 hx
      obtain ⟨a1, a2, a3⟩ := s
      obtain ⟨b1, b2, b3⟩ := src
      simp only at e2 e3 this
      subst e2 e3 this
      rfl
    · have e : ∀ (z : Src κ ℝ) (l : List (κ × Src κ ℝ)), StdMap.find ((k', z) :: l) n = StdMap.find l n := by
        intro z l; simp [StdMap.find, hk]
      rw [e] at hf ⊢
      exact ih hf

/-! ### Only free sources can be stale -/

/-- No source without free parameters is stale. -/
def FixedFresh (w : World κ E G X) (s : L κ E G X) : Prop :=
  ∀ n src, StdMap.find s.m.sources n = some src → Fixed src → Fresh w s n

theorem fixedFresh_of {w : World κ E G X} {s s' : L κ E G X} (hf : FixedFresh w s)
    (hu : Upd w s s') (hq : ∀ n src, StdMap.find s'.m.sources n = some src → Fixed src →
      Fresh w s' n ∨ (StdMap.find s.m.sources n = some src ∧ s'.objs n = s.objs n)) : FixedFresh w s' := by
  intro n src hs hx
  rcases hu n with hh | hh
  · exact hh
  · rcases hq n src hs hx with hh' | ⟨h1, h2⟩
    · exact hh'
    · intro src' hs'
      rw [hs] at hs'; cases hs'
      rw [hh, h2]
      exact hf n src h1 hx src h1

theorem setFree_fixed {w : World κ E G X} {s : L κ E G X} (h : Good w s) (hf : FixedFresh w s) (vs : List ℝ) :
    match paramOp w s (.setValues true vs) with
    | .ok s' _ => FixedFresh w s' ∧ List.Forall₂ (SameSrc (Same true)) s.m.sources s'.m.sources
    | .throws s' => FixedFresh w s'
    | .ub => True := by
  have hk := paramOp_keeps h (.setValues true vs)
  have hl := setLoop_same true s.m.sources vs
  unfold paramOp at hk ⊢
  simp only [ParOp.toOp, SrcModel.step, SrcModel.setParamValues, setParamValues_] at hk ⊢
  by_cases hc : vs.length ≠ count true s.m.param
  · rw [if_pos hc]; exact hf
  · rw [if_neg hc] at hk ⊢
    cases hr : setLoop true s.m.sources vs with
    | ub => trivial
    | throws m =>
      rw [hr] at hl hk
      simp only at hk ⊢
      exact fixedFresh_of hf hk.2 fun n src h1 h2 => .inr ⟨same_fixed hl h1 h2, rfl⟩
    | ok m r =>
      rw [hr] at hl hk
      simp only [ParOp.syncs, ↓reduceIte] at hk ⊢
      exact ⟨fixedFresh_of hf hk.2.1 fun n src h1 h2 => .inr ⟨same_fixed hl.1 h1 h2, rfl⟩, hl.1⟩

theorem fitting_step {w : World κ E G X} (hc : w.catchNeg = false) {s : L κ E G X} (h : Good w s)
    (hf : FixedFresh w s) {op : Op κ E G X} (hop : Fitting op) :
    match step w s op with
    | .ok s' _ => FixedFresh w s'
    | .throws s' => FixedFresh w s'
    | .ub => True := by
  cases op with
  | add src o =>
    simp only [step]
    have hk := (addSource_keeps h src o).1
    by_cases hd : StdMap.find s.m.sources src.name = none
    · obtain ⟨s', hs'⟩ := (addSource_keeps h src o).2 hd
      have hm : s'.m.sources = StdMap.put s.m.sources src.name src ∧
          s'.objs = Function.update s.objs src.name o := by
        unfold addSource at hs'
        simp only [SrcModel.addSource, hd] at hs'
        split at hs'
        · cases hs'
        · cases hs'; exact ⟨rfl, rfl⟩
      rw [hs'] at hk ⊢
      simp only
      refine fixedFresh_of hf hk.2.1 fun n src' h1 h2 => ?_
      by_cases hn : n = src.name
      · left; rw [hn]; exact hk.2.2.2
      · right
        rw [hm.1, StdMap.find_put h.wf.sorted', if_neg hn] at h1
        exact ⟨h1, by rw [hm.2, Function.update_of_ne hn]⟩
    · cases hfd : StdMap.find s.m.sources src.name with
      | none => exact absurd hfd hd
      | some x =>
        have : addSource w s src o = .throws s := by
          simp only [addSource, SrcModel.addSource, hfd]
        rw [this]; exact hf
  | delete n =>
    simp only [step]
    have hk := deleteSource_keeps h n
    have hm := deleteSource_m w s n
    have hobj : match deleteSource w s n with
        | .ok s' _ => s'.objs = s.objs
        | .throws s' => s'.objs = s.objs
        | .ub => True := by
      unfold deleteSource
      simp only
      cases SrcModel.deleteSource s.m n <;> simp [synced]
    have hsub : ∀ m' : M κ ℝ, m'.sources = StdMap.erase s.m.sources n → ∀ k src,
        StdMap.find m'.sources k = some src → StdMap.find s.m.sources k = some src := by
      intro m' hm' k src hs
      rw [hm', StdMap.find_erase h.wf.sorted'] at hs
      split at hs
      · cases hs
      · exact hs
    cases hr : deleteSource w s n with
    | ub => trivial
    | throws s' =>
      rw [hr] at hk hm hobj
      simp only [Out.void]
      cases hd : SrcModel.deleteSource s.m n with
      | ok m a => rw [hd] at hm; simp at hm
      | ub => rw [hd] at hm; simp at hm
      | throws m =>
        rw [hd] at hm
        simp only at hm hobj
        have hmm : m = s.m := by
          unfold SrcModel.deleteSource at hd
          split at hd <;> cases hd
          rfl
        exact fixedFresh_of hf hk.2 fun k src h1 h2 => .inr ⟨by rw [hm, hmm] at h1; exact h1, by rw [hobj]⟩
    | ok s' x =>
      rw [hr] at hk hm hobj
      simp only [Out.void]
      cases hd : SrcModel.deleteSource s.m n with
      | throws m => rw [hd] at hm; simp at hm
      | ub => rw [hd] at hm; simp at hm
      | ok m a =>
        rw [hd] at hm
        simp only at hm hobj
        have hmm : m.sources = StdMap.erase s.m.sources n := by
          unfold SrcModel.deleteSource at hd
          split at hd <;> cases hd
          rfl
        exact fixedFresh_of hf hk.2.1 fun k src h1 h2 =>
          .inr ⟨hsub m hmm k src (by rw [hm] at h1; exact h1), by rw [hobj]⟩
  | deleteAll =>
    obtain ⟨s', h1, h2, h3⟩ := deleteAll_good h
    simp only [step, h1]
    intro n src hs
    rw [h3] at hs; simp [StdMap.find] at hs
  | par op =>
    cases op with
    | setValues f vs =>
      cases f with
      | false => exact hop.elim
      | true =>
        have := setFree_fixed h hf vs
        simp only [step]
        cases hr : paramOp w s (.setValues true vs) with
        | ub => trivial
        | throws s' => rw [hr] at this; exact this
        | ok s' a => rw [hr] at this; exact this.1
    | sync =>
      have hk := paramOp_keeps h .sync
      simp only [step]
      have : paramOp w s .sync = .ok (syncParams w s) () := rfl
      rw [this] at hk ⊢
      exact fixedFresh_of hf hk.2.1 fun n src h1 h2 => .inr ⟨h1, rfl⟩
    | setParam p b n => exact hop.elim
    | setTrueValue a b c d => exact hop.elim
    | setParams a b => exact hop.elim
    | direct a b => exact hop.elim
  | syncSrc n =>
    obtain ⟨s', h1, h2, h3, h4, h5, h6⟩ := syncSrc_keeps h n
    simp only [step, h1]
    exact fixedFresh_of hf h3 fun k src g1 g2 => .inr ⟨by rw [h5] at g1; exact g1, by rw [h6]⟩
  | setEb a b => exact fun n _ _ _ => (setEb_good h a b).2 n
  | unsetEb => exact fun n _ _ _ => (unsetEb_good h).2 n
  | read es => exact hf
  | eval p =>
    obtain ⟨s', v, hv, k1, k2, k3, k4, -⟩ := value_keeps w hc p h
    simp only [step, hv, Out.void]
    intro n src h1 h2
    rw [k2] at h1
    exact (fresh_congr (by rw [k2]) k3 k4 n).mpr (hf n src h1 h2)
  | restore => exact hop.elim
  | save => exact hop.elim

theorem fitting_run {w : World κ E G X} (hc : w.catchNeg = false) (ops : List (Op κ E G X)) :
    ∀ {s s' : L κ E G X}, Good w s → FixedFresh w s → (∀ op ∈ ops, Fitting op) → run w s ops = some s' →
      FixedFresh w s' := by
  induction ops with
  | nil => intro s s' h hf _ hr; simp only [run, Option.some.injEq] at hr; rw [← hr]; exact hf
  | cons op ops ih =>
    intro s s' h hf hop hr
    have h1 := step_keeps hc h op
    have h2 := fitting_step hc h hf (hop op List.mem_cons_self)
    simp only [run] at hr
    cases hs : step w s op with
    | ub => rw [hs] at hr; cases hr
    | throws t => rw [hs] at hr h1 h2; exact ih h1.1 h2 (fun o ho => hop o (List.mem_cons_of_mem _ ho)) hr
    | ok t a => rw [hs] at hr h1 h2; exact ih h1.1 h2 (fun o ho => hop o (List.mem_cons_of_mem _ ho)) hr

theorem run_append {w : World κ E G X} (ops ops' : List (Op κ E G X)) : ∀ (s s' : L κ E G X),
    run w s (ops ++ ops') = some s' ↔ ∃ t, run w s ops = some t ∧ run w t ops' = some s' := by
  induction ops with
  | nil => intro s s'; simp [run]
  | cons op ops ih =>
    intro s s'
    simp only [List.cons_append, run]
    cases step w s op with
    | ok t a => exact ih t s'
    | throws t => exact ih t s'
    | ub => simp

/-- When nothing is stale and the parameter list is right, the number is the
log-likelihood. -/
theorem evalNum_logL {w : World κ E G X} {s : L κ E G X} (h : Good w s)
    (hf : w.newImp = true → ∀ n, Fresh w s n) (prior : Bool)
    (hp : prior = true → s.m.param = collect s.m.sources) : evalNum w prior s = logL w prior s := by
  unfold evalNum logL
  have h1 : terms w s s.events = dataSum w s := rfl
  have h2 : (npredTerms w s).sum = modelSum w s := by
    unfold npredTerms modelSum
    cases hi : w.newImp with
    | false => rfl
    | true =>
      simp only [↓reduceIte]
      have : s.npreds = s.m.sources.map (fun x => (x.1, counts w s x)) := by
        refine StdMap.ext h.npSorted ?_ fun k => ?_
        · have := h.wf.sorted'
          unfold StdMap.Sorted StdMap.keys at this ⊢
          rw [List.map_map]; exact this
        · have hmap : ∀ l : List (κ × Src κ ℝ), StdMap.find (l.map (fun x => (x.1, counts w s x))) k =
              (StdMap.find l k).map (fun src => counts w s (k, src)) := by
            intro l
            induction l with
            | nil => rfl
            | cons x l ih =>
              obtain ⟨k', src⟩ := x
              by_cases hk : k' = k
              · subst hk; simp [StdMap.find]
              · simp [StdMap.find, hk]; simpa using ih
          rw [hmap]
          cases hs : StdMap.find s.m.sources k with
          | none =>
            rw [Option.map_none, StdMap.find_none]
            rw [h.npKeys, ← StdMap.find_none]; exact hs
          | some src => exact hf hi k src hs
      rw [this, List.map_map]; rfl
  have h3 : prior = true → (s.m.param.map w.logPrior).sum = priors w s := by
    intro hpr
    rw [hp hpr]
    unfold priors
    generalize s.m.sources = l
    induction l with
    | nil => rfl
    | cons x l ih =>
      obtain ⟨k, src⟩ := x
      simp only [collect, List.map_append, List.sum_append, List.map_cons, List.sum_cons, ih]
  rw [h1, h2]
  cases prior with
  | false => simp
  | true => simp [h3]

theorem value_logL {w : World κ E G X} (hc : w.catchNeg = false) {s : L κ E G X} (h : Good w s)
    (hf : w.newImp = true → ∀ n, Fresh w s n) (prior : Bool)
    (hp : prior = true → s.m.param = collect s.m.sources) (hx : ¬ Excluded w s) :
    ∃ c, value w prior s = .ok (saveBest (evald w s c) (logL w prior s)) (logL w prior s) ∧
      Good w (evald w s c) := by
  obtain ⟨c, h1, h2⟩ := value_eq w hc prior h hx
  rw [evalNum_logL h hf prior hp] at h1
  exact ⟨c, h1, h2⟩

/-! ### Best fit -/

/-- What an evaluation does to the model and to the memory, whether or not the caches are
right. -/
def Frame (s s' : L κ E G X) : Prop := s'.m = s.m ∧ s'.best = s.best ∧ s'.bestPars = s.bestPars

theorem logSource_frame (w : World κ E G X) (s : L κ E G X) (j : Nat) (ev : Ev κ E) :
    match logSource w s j ev with
    | .ok s' _ => Frame s s'
    | .throws s' => Frame s s'
    | .ub => True := by
  have key : ∀ c evs, Frame s { s with events := evs, cache := c } := fun _ _ => ⟨rfl, rfl, rfl⟩
  unfold logSource
  by_cases h1 : s.m.sources ≠ [] ∧ s.nresp ≤ j
  · rw [if_pos h1]; exact ⟨rfl, rfl, rfl⟩
  · rw [if_neg h1]
    simp only
    by_cases h2 : 0 < (srcLoop w s.m.freeSrcs s.objs j s.m.sources ev s.cache 0).2.2
    · rw [if_pos h2]; exact key _ _
    · rw [if_neg h2]
      cases w.catchNeg
      · by_cases h3 : s.m.sources.length = 1
        · simp only [Bool.false_eq_true, ↓reduceIte, h3]; exact key _ _
        · simp only [Bool.false_eq_true, ↓reduceIte, h3]; exact key _ _
      · simp only [↓reduceIte]; exact key _ _

theorem dataLoop_frame (w : World κ E G X) : ∀ (n j : Nat) (s : L κ E G X),
    match dataLoop w n j s with
    | .ok s' _ => Frame s s'
    | .throws s' => Frame s s'
    | .ub => True := by
  intro n
  induction n with
  | zero => intro j s; exact ⟨rfl, rfl, rfl⟩
  | succ n ih =>
    intro j s
    unfold dataLoop
    cases s.events[j]? with
    | none => exact ⟨rfl, rfl, rfl⟩
    | some ev =>
      simp only
      by_cases hsk : skipped w s ev.e
      · rw [if_pos hsk]; exact ih _ _
      · rw [if_neg hsk]
        have h1 := logSource_frame w s j ev
        cases hr : logSource w s j ev with
        | ub => trivial
        | throws s' => rw [hr] at h1; exact h1
        | ok s' a =>
          rw [hr] at h1
          have h2 := ih (j + 1) { s' with acc := s'.acc.add a }
          simp only
          cases hd : dataLoop w n (j + 1) { s' with acc := s'.acc.add a } with
          | ub => trivial
          | throws t => rw [hd] at h2; exact ⟨h2.1.trans h1.1, h2.2.1.trans h1.2.1, h2.2.2.trans h1.2.2⟩
          | ok t b => rw [hd] at h2; exact ⟨h2.1.trans h1.1, h2.2.1.trans h1.2.1, h2.2.2.trans h1.2.2⟩

theorem value_frame (w : World κ E G X) (prior : Bool) (s : L κ E G X) :
    match value w prior s with
    | .ok s' v => s'.m = s.m ∧ ((Excluded w s ∧ s' = s) ∨ (¬ Excluded w s ∧
        ((s.best < v ∧ s'.best = v ∧ s'.bestPars = point s) ∨
         (¬ s.best < v ∧ s'.best = s.best ∧ s'.bestPars = s.bestPars))))
    | .throws s' => Frame s s'
    | .ub => True := by
  unfold value
  by_cases hx : excluded w s
  · rw [if_pos hx]; exact ⟨rfl, .inl ⟨hx, rfl⟩⟩
  · rw [if_neg hx]
    have h1 := dataLoop_frame w s.events.length 0 s
    cases hd : dataLoop w s.events.length 0 s with
    | ub => trivial
    | throws t => rw [hd] at h1; exact h1
    | ok t a =>
      rw [hd] at h1
      obtain ⟨e1, e2, e3⟩ := h1
      have key : ∀ (k : Kahan) (v : ℝ), (saveBest { t with acc := k } v).m = s.m ∧
          ((s.best < v ∧ (saveBest { t with acc := k } v).best = v ∧
            (saveBest { t with acc := k } v).bestPars = point s) ∨
          (¬ s.best < v ∧ (saveBest { t with acc := k } v).best = s.best ∧
            (saveBest { t with acc := k } v).bestPars = s.bestPars)) := by
        intro k v
        unfold saveBest
        by_cases hlt : s.best < v
        · have : t.best < v := e2 ▸ hlt
          rw [if_pos this]
          refine ⟨e1, .inl ⟨hlt, rfl, ?_⟩⟩
          simp only [getParamValues, e1, point, Bool.false_eq_true, ↓reduceIte]
        · have : ¬ t.best < v := e2 ▸ hlt
          rw [if_neg this]
          exact ⟨e1, .inr ⟨hlt, e2, e3⟩⟩
      exact ⟨(key _ _).1, .inr ⟨hx, (key _ _).2⟩⟩

theorem remembers_step {w : World κ E G X} {s : L κ E G X} {op : Op κ E G X} (hop : Remembers op)
    (hne : ∀ p, op ≠ .eval p) :
    match step w s op with
    | .ok s' _ => s'.best = s.best ∧ s'.bestPars = s.bestPars
    | .throws s' => s'.best = s.best ∧ s'.bestPars = s.bestPars
    | .ub => True := by
  have hpar : ∀ op : ParOp κ, match paramOp w s op with
      | .ok s' _ => s'.best = s.best ∧ s'.bestPars = s.bestPars
      | .throws s' => s'.best = s.best ∧ s'.bestPars = s.bestPars
      | .ub => True := by
    intro op
    unfold paramOp
    cases SrcModel.step s.m op.toOp with
    | ub => trivial
    | throws m => exact ⟨rfl, rfl⟩
    | ok m a =>
      simp only
      cases op.syncs
      · exact ⟨rfl, rfl⟩
      · exact ⟨rfl, rfl⟩
  cases op with
  | add src o => exact hop.elim
  | delete n => exact hop.elim
  | deleteAll => exact hop.elim
  | save => exact hop.elim
  | eval p => exact absurd rfl (hne p)
  | par op => exact hpar op
  | syncSrc n =>
    simp only [step]
    unfold syncSrcParams
    simp only
    cases StdMap.find (sync s.m).sources n with
    | none => exact ⟨rfl, rfl⟩
    | some src =>
      simp only
      by_cases hh : s.nresp < s.events.length
      · rw [if_pos hh]; exact ⟨rfl, rfl⟩
      · rw [if_neg hh]; exact ⟨rfl, rfl⟩
  | setEb a b => exact ⟨rfl, rfl⟩
  | unsetEb => exact ⟨rfl, rfl⟩
  | read es => exact ⟨rfl, rfl⟩
  | restore =>
    have := hpar (.setValues false s.bestPars)
    simp only [step]
    unfold restoreBestFit
    cases hr : paramOp w s (.setValues false s.bestPars) with
    | ub => trivial
    | throws s' => rw [hr] at this; exact this
    | ok s' a => rw [hr] at this; exact this

/-- The state of the memory after the evaluations in the list, starting from `s`. -/
def BestOf (s s' : L κ E G X) (l : List (List ℝ × ℝ)) : Prop :=
  (∀ x ∈ l, x.2 ≤ s'.best) ∧ s.best ≤ s'.best ∧
  ((s'.best = s.best ∧ s'.bestPars = s.bestPars) ∨ (s.best < s'.best ∧ (s'.bestPars, s'.best) ∈ l))

theorem best_run {w : World κ E G X} (ops : List (Op κ E G X)) : ∀ (s s' : L κ E G X),
    (∀ op ∈ ops, Remembers op) → run w s ops = some s' → BestOf s s' (evals w s ops) := by
  induction ops with
  | nil =>
    intro s s' _ hr
    simp only [run, Option.some.injEq] at hr
    subst hr
    exact ⟨fun x hx => by simp [evals] at hx, le_refl _, .inl ⟨rfl, rfl⟩⟩
  | cons op ops ih =>
    intro s s' hop hr
    have hop' : ∀ o ∈ ops, Remembers o := fun o ho => hop o (List.mem_cons_of_mem _ ho)
    have skip : ∀ t, t.best = s.best ∧ t.bestPars = s.bestPars → run w t ops = some s' →
        BestOf s s' (evals w t ops) := by
      rintro t ⟨h1, h2⟩ hr
      have := ih t s' hop' hr
      unfold BestOf at this ⊢
      rw [h1, h2] at this
      exact this
    by_cases he : ∃ p, op = .eval p
    · obtain ⟨p, rfl⟩ := he
      have hv := value_frame w p s
      simp only [run, step] at hr
      simp only [evals]
      cases hval : value w p s with
      | ub => rw [hval] at hr; simp [Out.void] at hr
      | throws t => rw [hval] at hr hv; exact skip t ⟨hv.2.1, hv.2.2⟩ hr
      | ok t v =>
        rw [hval] at hr hv
        simp only [Out.void] at hr
        simp only
        rcases hv.2 with ⟨hx, rfl⟩ | ⟨hx, hb⟩
        · rw [if_pos hx]; exact skip t ⟨rfl, rfl⟩ hr
        · rw [if_neg hx]
          obtain ⟨i1, i2, i3⟩ := ih t s' hop' hr
          rcases hb with ⟨b1, b2, b3⟩ | ⟨b1, b2, b3⟩
          · rw [b2] at i2
            refine ⟨?_, le_trans b1.le i2, .inr ⟨lt_of_lt_of_le b1 i2, ?_⟩⟩
            · intro x hx'
              rcases List.mem_cons.mp hx' with rfl | hx'
              · exact i2
              · exact i1 x hx'
            · rcases i3 with ⟨j1, j2⟩ | ⟨j1, j2⟩
              · rw [j1, j2, b2, b3]; exact List.mem_cons_self
              · exact List.mem_cons_of_mem _ j2
          · rw [b2] at i2
            refine ⟨?_, i2, ?_⟩
            · intro x hx'
              rcases List.mem_cons.mp hx' with rfl | hx'
              · exact le_trans (not_lt.mp b1) i2
              · exact i1 x hx'
            · rcases i3 with ⟨j1, j2⟩ | ⟨j1, j2⟩
              · exact .inl ⟨j1.trans b2, j2.trans b3⟩
              · exact .inr ⟨b2 ▸ j1, List.mem_cons_of_mem _ j2⟩
    · have hne : ∀ p, op ≠ .eval p := fun p hp => he ⟨p, hp⟩
      have hst := remembers_step (w := w) (s := s) (hop op List.mem_cons_self) hne
      have hev : evals w s (op :: ops) = match step w s op with
          | .ok s' _ => evals w s' ops
          | .throws s' => evals w s' ops
          | .ub => [] := by
        cases op <;> first | rfl | exact absurd rfl (hne _)
      rw [hev]
      simp only [run] at hr
      cases hs : step w s op with
      | ub => rw [hs] at hr; cases hr
      | throws t => rw [hs] at hr hst; exact skip t hst hr
      | ok t a => rw [hs] at hr hst; exact skip t hst hr

/-- Setting all values and getting them. -/
theorem setAll_point {w : World κ E G X} {s s' : L κ E G X} (hp : s.m.param = collect s.m.sources)
    {vs : List ℝ} (hr : paramOp w s (.setValues false vs) = .ok s' ()) :
    (collect s'.m.sources).map (·.value) = vs ∧ s'.m.param = collect s'.m.sources ∧
      List.Forall₂ (SameSrc (Same false)) s.m.sources s'.m.sources ∧ s'.objs = s.objs ∧
      s'.events = s.events ∧ s'.useEb = s.useEb ∧ s'.emin = s.emin ∧ s'.emax = s.emax ∧
      s'.best = s.best ∧ s'.bestPars = s.bestPars := by
  have hl := setLoop_same false s.m.sources vs
  unfold paramOp at hr
  simp only [ParOp.toOp, SrcModel.step, SrcModel.setParamValues, setParamValues_] at hr
  by_cases hc : vs.length ≠ count false s.m.param
  · rw [if_pos hc] at hr; cases hr
  · rw [if_neg hc] at hr
    cases hd : setLoop false s.m.sources vs with
    | ub => rw [hd] at hr; cases hr
    | throws m => rw [hd] at hr; cases hr
    | ok m r =>
      rw [hd] at hr hl
      simp only [ParOp.syncs, ↓reduceIte] at hr
      cases hr
      simp only [sel, Bool.false_eq_true, ↓reduceIte] at hl
      have hlen : ∀ (a b : List (κ × Src κ ℝ)), List.Forall₂ (SameSrc (Same false)) a b →
          (collect b).length = (collect a).length := by
        intro a b h
        induction h with
        | nil => rfl
        | @cons x y a b hxy _ ih =>
          obtain ⟨k, s⟩ := x
          obtain ⟨k', s'⟩ := y
          simp only [collect, List.length_append, ih, hxy.2.2.2.length_eq]
      have h1 := hlen _ _ hl.1
      have h2 := congrArg List.length hl.2
      simp only [List.length_append, List.length_map] at h2
      simp only [ne_eq, not_not, count, Bool.false_eq_true, ↓reduceIte, hp] at hc
      have hr0 : r = [] := List.length_eq_zero_iff.mp (by omega)
      refine ⟨?_, rfl, hl.1, rfl, rfl, rfl, rfl, rfl, rfl, rfl⟩
      rw [hr0, List.append_nil] at hl
      exact hl.2.symm

theorem restore_point {w : World κ E G X} {s s' : L κ E G X} (hp : s.m.param = collect s.m.sources)
    (hr : restoreBestFit w s = .ok s' ()) : (collect s'.m.sources).map (·.value) = s.bestPars ∧
      s'.m.param = collect s'.m.sources ∧
      List.Forall₂ (SameSrc (Same false)) s.m.sources s'.m.sources ∧ s'.objs = s.objs ∧
      s'.events = s.events ∧ s'.useEb = s.useEb ∧ s'.emin = s.emin ∧ s'.emax = s.emax ∧
      s'.best = s.best ∧ s'.bestPars = s.bestPars := by
  unfold restoreBestFit at hr
  cases hd : paramOp w s (.setValues false s.bestPars) with
  | ub => rw [hd] at hr; cases hr
  | throws t => rw [hd] at hr; cases hr
  | ok t a =>
    rw [hd] at hr
    cases hr
    obtain ⟨h1, h2, h3⟩ := setAll_point hp hd
    exact ⟨h1, rfl, h3⟩

/-- Two lists of sources of the same shape with the same values are the same. -/
theorem same_values {a b c : List (κ × Src κ ℝ)} (hb : List.Forall₂ (SameSrc (Same false)) a b)
    (hc : List.Forall₂ (SameSrc (Same false)) a c)
    (hv : (collect b).map (·.value) = (collect c).map (·.value)) : b = c := by
  have hp : ∀ (x y z : List (Par κ ℝ)), List.Forall₂ (Same false) x y → List.Forall₂ (Same false) x z →
      y.map (·.value) = z.map (·.value) → y = z := by
    intro x y z h
    induction h generalizing z with
    | nil => intro h2 _; cases h2; rfl
    | @cons p q a b hpq _ ih =>
      intro h2 hv
      cases h2 with
      | @cons _ r _ c hpr h2 =>
        simp only [List.map_cons, List.cons.injEq] at hv
        have : q = r := by
          have h1 := hpq.1.trans hpr.1.symm
          obtain ⟨q1, q2, q3, q4, q5, q6⟩ := q
          obtain ⟨r1, r2, r3, r4, r5, r6⟩ := r
          simp only [Par.shape, Prod.mk.injEq] at h1
          simp only at hv
          obtain ⟨rfl, rfl, rfl, rfl, rfl⟩ := h1
          rw [hv.1]
        rw [this, ih _ h2 hv.2]
  induction hb generalizing c with
  | nil => cases hc; rfl
  | @cons x y a b hxy _ ih =>
    cases hc with
    | @cons _ z _ c hxz hc =>
      obtain ⟨k, s⟩ := x
      obtain ⟨k1, s1⟩ := y
      obtain ⟨k2, s2⟩ := z
      obtain ⟨e1, e2, e3, e4⟩ := hxy
      obtain ⟨f1, f2, f3, f4⟩ := hxz
      simp only at e1 e2 e3 e4 f1 f2 f3 f4
      simp only [collect, List.map_append] at hv
      have hlen : (s1.pars.map (·.value)).length = (s2.pars.map (·.value)).length := by
        simp only [List.length_map]; rw [← e4.length_eq, ← f4.length_eq]
      obtain ⟨hv1, hv2⟩ := List.append_inj hv hlen
      have hps := hp _ _ _ e4 f4 hv1
      obtain ⟨a1, a2, a3⟩ := s1
      obtain ⟨b1, b2, b3⟩ := s2
      simp only at e1 e2 e3 f1 f2 f3 hps
      subst hps
      rw [e1, e2, e3, f1, f2, f3, ih hc hv2]

theorem same_trans {f : Bool} {a b c : List (κ × Src κ ℝ)} (h1 : List.Forall₂ (SameSrc (Same f)) a b)
    (h2 : List.Forall₂ (SameSrc (Same f)) b c) : List.Forall₂ (SameSrc (Same f)) a c := by
  have hp : ∀ (x y z : List (Par κ ℝ)), List.Forall₂ (Same f) x y → List.Forall₂ (Same f) y z →
      List.Forall₂ (Same f) x z := by
    intro x y z h
    induction h generalizing z with
    | nil => intro h2; cases h2; exact .nil
    | @cons p q a b hpq _ ih =>
      intro h2
      cases h2 with
      | @cons _ r _ c hqr h2 =>
        refine .cons ⟨hqr.1.trans hpq.1, fun hf hpf => ?_⟩ (ih _ h2)
        have hq := hpq.2 hf hpf
        rw [hqr.2 hf (by rw [hq]; exact hpf), hq]
  induction h1 generalizing c with
  | nil => cases h2; exact .nil
  | @cons x y a b hxy _ ih =>
    cases h2 with
    | @cons _ z _ c hyz h2 =>
      refine .cons ⟨hyz.1.trans hxy.1, hyz.2.1.trans hxy.2.1, hyz.2.2.1.trans hxy.2.2.1,
        hp _ _ _ hxy.2.2.2 hyz.2.2.2⟩ (ih h2)

theorem same_weaken {a b : List (κ × Src κ ℝ)} (h : List.Forall₂ (SameSrc (Same true)) a b) :
    List.Forall₂ (SameSrc (Same false)) a b :=
  h.imp fun x y hxy => ⟨hxy.1, hxy.2.1, hxy.2.2.1, hxy.2.2.2.imp fun p q hpq =>
    ⟨hpq.1, fun hh => by cases hh⟩⟩

theorem same_self (f : Bool) (a : List (κ × Src κ ℝ)) : List.Forall₂ (SameSrc (Same f)) a a :=
  List.forall₂_same.mpr fun x _ => ⟨rfl, rfl, rfl, same_all f _⟩

theorem same_symm {f : Bool} {a b : List (κ × Src κ ℝ)} (h : List.Forall₂ (SameSrc (Same f)) a b) :
    List.Forall₂ (SameSrc (Same f)) b a := by
  have hp : ∀ (x y : List (Par κ ℝ)), List.Forall₂ (Same f) x y → List.Forall₂ (Same f) y x := by
    intro x y h
    induction h with
    | nil => exact .nil
    | @cons p q a b hpq _ ih =>
      refine .cons ⟨hpq.1.symm, fun hf hq => ?_⟩ ih
      have : p.free = false := by
        have := hpq.1; simp only [Par.shape, Prod.mk.injEq] at this; rw [← this.2.2.2.2]; exact hq
      exact (hpq.2 hf this).symm
  induction h with
  | nil => exact .nil
  | @cons x y a b hxy _ ih =>
    exact .cons ⟨hxy.1.symm, hxy.2.1.symm, hxy.2.2.1.symm, hp _ _ hxy.2.2.2⟩ ih

theorem logL_congr {w : World κ E G X} {s t : L κ E G X} (h1 : s.m.sources = t.m.sources)
    (h2 : s.objs = t.objs) (h3 : s.events.map (·.e) = t.events.map (·.e)) (h4 : s.useEb = t.useEb)
    (h5 : s.emin = t.emin) (h6 : s.emax = t.emax) (prior : Bool) : logL w prior s = logL w prior t := by
  have hm : modelSum w s = modelSum w t := by
    unfold modelSum counts; rw [h1, h2]
  have hpr : priors w s = priors w t := by unfold priors; rw [h1]
  have hlt : logTerm w s = logTerm w t := by
    funext e; unfold logTerm density srcDensity; rw [h1, h2]
  have hir : InRange w s = InRange w t := by
    funext e; unfold InRange; rw [h4, h5, h6]
  have hd : ∀ l l' : List (Ev κ E), l.map (·.e) = l'.map (·.e) →
      terms w s l = terms w t l' := by
    intro l
    induction l with
    | nil => intro l' h; cases l' with
      | nil => rfl
      | cons x l' => simp at h
    | cons x l ih =>
      intro l' h
      cases l' with
      | nil => simp at h
      | cons y l' =>
        simp only [List.map_cons, List.cons.injEq] at h
        have i := ih l' h.2
        unfold terms at i ⊢
        rw [hlt, hir] at i ⊢
        by_cases hy : InRange w t y.e
        · have hx : InRange w t x.e := by rw [h.1]; exact hy
          rw [List.filter_cons_of_pos (by simpa using hx), List.filter_cons_of_pos (by simpa using hy)]
          simp only [List.map_cons, List.sum_cons, h.1]; rw [i]
        · have hx : ¬ InRange w t x.e := by rw [h.1]; exact hy
          rw [List.filter_cons_of_neg (by simpa using hx), List.filter_cons_of_neg (by simpa using hy)]
          exact i
  have : dataSum w s = dataSum w t := hd s.events t.events h3
  unfold logL
  rw [this, hm, hpr]

/-- The log-likelihood with other sources. -/
noncomputable def logLAt (w : World κ E G X) (prior : Bool) (s : L κ E G X) (l : List (κ × Src κ ℝ)) : ℝ :=
  logL w prior { s with m := { s.m with sources := l } }

/-- All values within their bounds. -/
def Bounded (l : List (κ × Src κ ℝ)) : Prop := ∀ p ∈ collect l, p.lo ≤ p.value ∧ p.value ≤ p.hi

theorem funSetValues_bounded (f : Bool) : ∀ (ps : List (Par κ ℝ)) (vs : List ℝ) {ps' r},
    funSetValues f ps vs = .ok ps' r → (∀ p ∈ ps, p.lo ≤ p.value ∧ p.value ≤ p.hi) →
    ∀ p ∈ ps', p.lo ≤ p.value ∧ p.value ≤ p.hi := by
  intro ps
  induction ps with
  | nil => intro vs ps' r h _; simp only [funSetValues] at h; cases h; simp
  | cons p ps ih =>
    intro vs ps' r h hb
    have hb1 := hb p List.mem_cons_self
    have hb2 := fun q hq => hb q (List.mem_cons_of_mem _ hq)
    simp only [funSetValues] at h
    by_cases hskip : (f && !p.free) = true
    · rw [if_pos hskip] at h
      cases hr : funSetValues f ps vs with
      | ub => rw [hr] at h; cases h
      | throws x => rw [hr] at h; cases h
      | ok x y =>
        rw [hr] at h; cases h
        intro q hq
        rcases List.mem_cons.mp hq with rfl | hq
        · exact hb1
        · exact ih vs hr hb2 q hq
    · rw [if_neg hskip] at h
      cases vs with
      | nil => cases h
      | cons v vs =>
        simp only at h
        cases hv : p.setValue v with
        | none => rw [hv] at h; cases h
        | some p' =>
          rw [hv] at h
          simp only at h
          cases hr : funSetValues f ps vs with
          | ub => rw [hr] at h; cases h
          | throws x => rw [hr] at h; cases h
          | ok x y =>
            rw [hr] at h; cases h
            have hp' : p'.lo ≤ p'.value ∧ p'.value ≤ p'.hi := by
              unfold Par.setValue at hv
              split at hv
              · rename_i hlt; cases hv; exact hlt
              · cases hv
            intro q hq
            rcases List.mem_cons.mp hq with rfl | hq
            · exact hp'
            · exact ih vs hr hb2 q hq

theorem setLoop_bounded (f : Bool) : ∀ (m : List (κ × Src κ ℝ)) (vs : List ℝ) {m' r},
    setLoop f m vs = .ok m' r → Bounded m → Bounded m' := by
  intro m
  induction m with
  | nil => intro vs m' r h hb; simp only [setLoop] at h; cases h; exact hb
  | cons x m ih =>
    obtain ⟨k, src⟩ := x
    intro vs m' r h hb
    simp only [setLoop] at h
    have hb' : (∀ p ∈ src.pars, p.lo ≤ p.value ∧ p.value ≤ p.hi) ∧ Bounded m :=
      ⟨fun p hp => hb p (by simp only [collect, List.mem_append]; exact .inl hp),
       fun p hp => hb p (by simp only [collect, List.mem_append]; exact .inr hp)⟩
    cases h1 : funSetValues f src.pars vs with
    | ub => rw [h1] at h; cases h
    | throws x => rw [h1] at h; cases h
    | ok ps r1 =>
      rw [h1] at h
      simp only at h
      cases h2 : setLoop f m r1 with
      | ub => rw [h2] at h; cases h
      | throws x => rw [h2] at h; cases h
      | ok m2 r2 =>
        rw [h2] at h; cases h
        intro p hp
        simp only [collect, List.mem_append] at hp
        rcases hp with hp | hp
        · exact funSetValues_bounded f _ _ h1 hb'.1 p hp
        · exact ih _ h2 hb'.2 p hp

theorem collect_same {f : Bool} {a b : List (κ × Src κ ℝ)} (h : List.Forall₂ (SameSrc (Same f)) a b) :
    List.Forall₂ (Same f) (collect a) (collect b) := by
  induction h with
  | nil => exact .nil
  | @cons x y a b hxy _ ih =>
    exact List.rel_append hxy.2.2.2 ih

theorem fits_of_same {f : Bool} {a b : List (Par κ ℝ)} (h : List.Forall₂ (Same f) a b)
    (hb : ∀ p ∈ b, p.lo ≤ p.value ∧ p.value ≤ p.hi) : List.Forall₂ Fits a (b.map (·.value)) := by
  induction h with
  | nil => exact .nil
  | @cons p q a b hpq _ ih =>
    refine .cons ?_ (ih fun x hx => hb x (List.mem_cons_of_mem _ hx))
    have h1 := hb q List.mem_cons_self
    have h2 := hpq.1
    simp only [Par.shape, Prod.mk.injEq] at h2
    unfold Fits
    rw [← h2.2.2.1, ← h2.2.2.2.1]; exact h1

/-- Carried along a history of settings and evaluations. -/
structure FitInv (w : World κ E G X) (s0 s : L κ E G X) : Prop where
  good : Good w s
  fresh : ∀ n, w.newImp = true → Fresh w s n
  fixed : FixedFresh w s
  param : s.m.param = collect s.m.sources
  same : List.Forall₂ (SameSrc (Same true)) s0.m.sources s.m.sources
  objs : s.objs = s0.objs
  evs : s.events.map (·.e) = s0.events.map (·.e)
  useEb : s.useEb = s0.useEb
  emin : s.emin = s0.emin
  emax : s.emax = s0.emax
  bounds : Bounded s0.m.sources → Bounded s.m.sources

theorem FitInv.logL_eq {w : World κ E G X} {s0 s : L κ E G X} (h : FitInv w s0 s) (prior : Bool) :
    logL w prior s = logLAt w prior s0 s.m.sources := by
  unfold logLAt
  exact logL_congr (s := s) (t := { s0 with m := { s0.m with sources := s.m.sources } }) rfl h.objs h.evs h.useEb h.emin h.emax prior

theorem moving_step {w : World κ E G X} (hc : w.catchNeg = false) {prior : Bool} {s0 s s' : L κ E G X}
    (h : FitInv w s0 s) {op : Op κ E G X} (hop : Moving prior op) (hs : step w s op = .ok s' ()) :
    FitInv w s0 s' ∧ Remembers op ∧ ∀ v, op = .eval prior → ¬ Excluded w s →
      value w prior s = .ok s' v → v = logLAt w prior s0 s.m.sources := by
  have allFresh : ∀ t, FixedFresh w t → FreeFresh w t → ∀ n, w.newImp = true → Fresh w t n := by
    intro t h1 h2 n hi src hf
    by_cases hx : Fixed src
    · exact h1 n src hf hx src hf
    · exact h2 hi n src hf hx src hf
  cases op with
  | par op =>
    cases op with
    | setValues f vs =>
      cases f with
      | false => exact hop.elim
      | true =>
        have h1 := setFree_fixed h.good h.fixed vs
        have h2 := paramOp_keeps h.good (.setValues true vs)
        simp only [step] at hs
        rw [hs] at h1 h2
        have h3 : s'.m.param = collect s'.m.sources ∧ s'.objs = s.objs ∧ s'.events = s.events ∧
            s'.useEb = s.useEb ∧ s'.emin = s.emin ∧ s'.emax = s.emax ∧
            (Bounded s.m.sources → Bounded s'.m.sources) := by
          unfold paramOp at hs
          simp only [ParOp.toOp, SrcModel.step, SrcModel.setParamValues, setParamValues_] at hs
          by_cases hl : vs.length ≠ count true s.m.param
          · rw [if_pos hl] at hs; cases hs
          · rw [if_neg hl] at hs
            cases hd : setLoop true s.m.sources vs with
            | ub => rw [hd] at hs; cases hs
            | throws m => rw [hd] at hs; cases hs
            | ok m r =>
              rw [hd] at hs
              simp only [ParOp.syncs, ↓reduceIte] at hs
              cases hs; exact ⟨rfl, rfl, rfl, rfl, rfl, rfl, setLoop_bounded true _ _ hd⟩
        obtain ⟨g1, g2, g3, g4, g5, g6, g7⟩ := h3
        exact ⟨⟨h2.1, allFresh s' h1.1 (h2.2.2 rfl), h1.1, g1, same_trans h.same h1.2,
          g2.trans h.objs, by rw [g3]; exact h.evs, g4.trans h.useEb, g5.trans h.emin, g6.trans h.emax,
          fun hb => g7 (h.bounds hb)⟩,
          trivial, fun v hv => by cases hv⟩
    | sync =>
      have h2 := paramOp_keeps h.good .sync
      have : paramOp w s .sync = .ok (syncParams w s) () := rfl
      simp only [step] at hs
      rw [this] at hs h2
      cases hs
      have hff := fixedFresh_of (s' := syncParams w s) h.fixed h2.2.1 fun n src h1 h2 => .inr ⟨h1, rfl⟩
      exact ⟨⟨h2.1, allFresh _ hff (h2.2.2 rfl), hff, rfl, h.same, h.objs, h.evs, h.useEb, h.emin, h.emax,
        h.bounds⟩,
        trivial, fun v hv => by cases hv⟩
    | setParam p b n => exact hop.elim
    | setTrueValue a b c d => exact hop.elim
    | setParams a b => exact hop.elim
    | direct a b => exact hop.elim
  | eval p =>
    have hp : p = prior := hop
    subst hp
    obtain ⟨t, v, hv, k1, k2, k3, k4, k5, k6, k7, k8⟩ := value_keeps w hc p h.good
    simp only [step, hv, Out.void] at hs
    cases hs
    have hfr : ∀ n, Fresh w s' n ↔ Fresh w s n := fresh_congr (by rw [k2]) k3 k4
    refine ⟨⟨k1, fun n hi => (hfr n).mpr (h.fresh n hi),
      fun n src h1 h2 => (hfr n).mpr (h.fixed n src (by rw [k2] at h1; exact h1) h2), by rw [k2]; exact h.param,
      by rw [k2]; exact h.same, k3.trans h.objs, k8.trans h.evs, k5.trans h.useEb, k6.trans h.emin,
      k7.trans h.emax, fun hb => by rw [k2]; exact h.bounds hb⟩, trivial, ?_⟩
    intro v' _ hx hv'
    obtain ⟨c, hl, -⟩ := value_logL hc h.good (fun hi n => h.fresh n hi) p (fun _ => h.param) hx
    rw [hl] at hv'
    cases hv'
    exact h.logL_eq p
  | add src o => exact hop.elim
  | delete n => exact hop.elim
  | deleteAll => exact hop.elim
  | save => exact hop.elim
  | syncSrc n => exact hop.elim
  | setEb a b => exact hop.elim
  | unsetEb => exact hop.elim
  | read es => exact hop.elim
  | restore => exact hop.elim

theorem moving_run {w : World κ E G X} (hc : w.catchNeg = false) {prior : Bool} {s0 : L κ E G X}
    (ops : List (Op κ E G X)) : ∀ {s s' : L κ E G X}, FitInv w s0 s → (∀ op ∈ ops, Moving prior op) →
      runOk w s ops = some s' → FitInv w s0 s' ∧ run w s ops = some s' ∧ (∀ op ∈ ops, Remembers op) ∧
      ∀ x ∈ evals w s ops, ∃ l, List.Forall₂ (SameSrc (Same true)) s0.m.sources l ∧
        (collect l).map (·.value) = x.1 ∧ x.2 = logLAt w prior s0 l ∧
        (Bounded s0.m.sources → Bounded l) := by
  induction ops with
  | nil =>
    intro s s' h _ hr
    simp only [runOk, Option.some.injEq] at hr
    subst hr
    exact ⟨h, rfl, by simp, by simp [evals]⟩
  | cons op ops ih =>
    intro s s' h hop hr
    simp only [runOk] at hr
    cases hs : step w s op with
    | ub => rw [hs] at hr; cases hr
    | throws t => rw [hs] at hr; cases hr
    | ok t a =>
      rw [hs] at hr
      simp only at hr
      obtain ⟨h1, h2, h3⟩ := moving_step hc h (hop op List.mem_cons_self) hs
      obtain ⟨i1, i2, i3, i4⟩ := ih h1 (fun o ho => hop o (List.mem_cons_of_mem _ ho)) hr
      refine ⟨i1, by simp only [run, hs]; exact i2, ?_, ?_⟩
      · intro o ho
        rcases List.mem_cons.mp ho with rfl | ho
        · exact h2
        · exact i3 o ho
      · by_cases he : ∃ p, op = .eval p
        · obtain ⟨p, rfl⟩ := he
          have hp : p = prior := hop _ List.mem_cons_self
          subst hp
          simp only [evals]
          cases hval : value w p s with
          | ub => rw [step, hval] at hs; cases hs
          | throws u => rw [step, hval] at hs; cases hs
          | ok u v =>
            rw [step, hval] at hs
            cases hs
            simp only
            by_cases hx : Excluded w s
            · rw [if_pos hx]; exact i4
            · rw [if_neg hx]
              intro x hxm
              rcases List.mem_cons.mp hxm with rfl | hxm
              · refine ⟨s.m.sources, h.same, ?_, h3 v rfl hx hval, h.bounds⟩
                simp only [point, h.param]
              · exact i4 x hxm
        · have hne : ∀ p, op ≠ .eval p := fun p hp => he ⟨p, hp⟩
          have hev : evals w s (op :: ops) = match step w s op with
              | .ok s' _ => evals w s' ops
              | .throws s' => evals w s' ops
              | .ub => [] := by
            cases op <;> first | rfl | exact absurd rfl (hne _)
          rw [hev, hs]
          exact i4

/-- After a restored best fit the log-likelihood is the remembered one. -/
theorem restored_value {w : World κ E G X} (hc : w.catchNeg = false) {prior : Bool} {s0 s : L κ E G X}
    (h0 : FitInv w s0 s0) (hb : s0.best = noBest) (hx : ¬ Excluded w s0) (ops : List (Op κ E G X))
    (hop : ∀ op ∈ ops, Moving prior op) (hr : runOk w s0 ops = some s) (hbest : noBest < s.best) :
    (∀ x ∈ evals w s0 ops, x.2 ≤ s.best) ∧ (s.bestPars, s.best) ∈ evals w s0 ops ∧
    (Bounded s0.m.sources → ∃ s', restoreBestFit w s = .ok s' ()) ∧
    ∀ s', restoreBestFit w s = .ok s' () → point s' = s.bestPars ∧
      logL w prior s' = s.best ∧ ∃ s'', value w prior s' = .ok s'' s.best := by
  obtain ⟨h1, h2, h3, h4⟩ := moving_run hc ops h0 hop hr
  obtain ⟨b1, b2, b3⟩ := best_run ops s0 s h3 h2
  have hin : (s.bestPars, s.best) ∈ evals w s0 ops := by
    rcases b3 with ⟨e, -⟩ | ⟨-, e⟩
    · rw [e, hb] at hbest; exact absurd hbest (lt_irrefl _)
    · exact e
  obtain ⟨l, l1, l2, l3, l4⟩ := h4 _ hin
  refine ⟨b1, hin, fun hbd => ?_, ?_⟩
  · have hfit : List.Forall₂ Fits (collect s.m.sources) s.bestPars := by
      have : List.Forall₂ (Same true) (collect s.m.sources) (collect l) :=
        collect_same (same_trans (same_symm h1.same) l1)
      have := fits_of_same this (l4 hbd)
      rw [l2] at this; exact this
    obtain ⟨m', e1, -, -⟩ := setLoop_ok false [] s.m.sources s.bestPars hfit
    rw [List.append_nil] at e1
    have hlen : ¬ s.bestPars.length ≠ count false s.m.param := by
      rw [h1.param, not_not]
      exact hfit.length_eq.symm
    unfold restoreBestFit paramOp
    simp only [ParOp.toOp, SrcModel.step, SrcModel.setParamValues, setParamValues_, ParOp.syncs, if_neg hlen, e1,
      ↓reduceIte]
    exact ⟨_, rfl⟩
  intro s' hrest
  obtain ⟨r1, r2, r3, r4, r5, r6, r7, r8, -⟩ := restore_point h1.param hrest
  have hl : s'.m.sources = l :=
    same_values (same_trans (same_weaken h1.same) r3) (same_weaken l1) (by rw [r1, l2])
  have hk := restore_keeps h1.good
  rw [hrest] at hk
  have hff : FixedFresh w s' := fixedFresh_of h1.fixed hk.2.1 fun n src g1 g2 => by
    right
    rw [hl] at g1
    have e0 := same_fixed l1 g1 g2
    exact ⟨same_fixed (same_symm h1.same) e0 g2, by rw [r4]⟩
  have hfr : w.newImp = true → ∀ n, Fresh w s' n := by
    intro hi n src hf
    by_cases hxf : Fixed src
    · exact hff n src hf hxf src hf
    · exact hk.2.2 hi n src hf hxf src hf
  have hx' : ¬ Excluded w s' := by
    unfold Excluded at hx ⊢
    rw [r6, r7, r8, h1.useEb, h1.emin, h1.emax]; exact hx
  obtain ⟨c, hv, -⟩ := value_logL hc hk.1 hfr prior (fun _ => r2) hx'
  have he : logL w prior s' = s.best := by
    simp only at l3
    rw [l3, ← hl]
    unfold logLAt
    refine logL_congr (s := s') (t := { s0 with m := { s0.m with sources := s'.m.sources } }) rfl
      (r4.trans h1.objs) ?_ (r6.trans h1.useEb) (r7.trans h1.emin) (r8.trans h1.emax) prior
    rw [r5]; exact h1.evs
  rw [he] at hv
  refine ⟨?_, he, ⟨_, hv⟩⟩
  unfold point; rw [r2]; exact r1

end Verif.Unbinned
