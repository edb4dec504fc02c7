import Verif.Redata.Lemmas
set_option linter.unusedVariables false
set_option linter.unusedSimpArgs false
set_option linter.unusedSectionVars false
namespace Verif.Redata

open Verif.Vec Verif.Edisp Verif.Drm Verif.Binned Spec
open Verif.StdMap (find put erase keys)

/-- Two runs end in the same way, with related results. -/
inductive Two {α β : Type} (P : α → β → Prop) : Res α → Res β → Prop
  | ok {a b} : P a b → Two P (.ok a) (.ok b)
  | throws : Two P .throws .throws
  | ub : Two P .ub .ub

theorem Two.bind {α β γ δ : Type} {P : α → β → Prop} {Q : γ → δ → Prop} {r : Res α} {r' : Res β}
    {f : α → Res γ} {g : β → Res δ} (h : Two P r r') (hf : ∀ a b, P a b → Two Q (f a) (g b)) :
    Two Q (r >>= f) (r' >>= g) := by
  cases h with
  | ok h => exact hf _ _ h
  | throws => exact .throws
  | ub => exact .ub

theorem Two.refl {α : Type} (r : Res α) : Two (fun a b : α => a = b) r r := by
  cases r with
  | ok => exact .ok rfl
  | throws => exact .throws
  | ub => exact .ub

theorem Two.ok_left {α β : Type} {P : α → β → Prop} {r : Res α} {r' : Res β} (h : Two P r r') {a : α} (ha : r = .ok a) :
    ∃ b, r' = .ok b ∧ P a b := by
  cases h with
  | ok h => cases ha; exact ⟨_, rfl, h⟩
  | throws => cases ha
  | ub => cases ha

variable {ν : Type} [LinearOrder ν] {e : Env} {n : ν} {t : Nat → List ℝ}

/-- Another template for the source `n`. -/
def reσ (n : ν) (t : Nat → List ℝ) (k : ν) (σ : Src) : Src := if k = n then { σ with tmpl := t } else σ

def reL (n : ν) (t : Nat → List ℝ) (l : List (ν × Src)) : List (ν × Src) := l.map (fun x => (x.1, reσ n t x.1 x.2))

def re (n : ν) (t : Nat → List ℝ) (st : St ν) : St ν := { st with srcs := reL n t st.srcs }

theorem withMap_eq (img : List ℝ) (l : List (ν × Src)) : withMap n img l = reL n (fun _ => img) l := rfl

theorem reσ_addr (k : ν) (σ : Src) : (reσ n t k σ).addr = σ.addr := by unfold reσ; split <;> rfl
theorem reσ_useEdisp (k : ν) (σ : Src) : (reσ n t k σ).useEdisp = σ.useEdisp := by unfold reσ; split <;> rfl
theorem reσ_spec (k : ν) (σ : Src) : (reσ n t k σ).spec = σ.spec := by unfold reσ; split <;> rfl
theorem reσ_dspec (k : ν) (σ : Src) : (reσ n t k σ).dspec = σ.dspec := by unfold reσ; split <;> rfl
theorem reσ_pars (k : ν) (σ : Src) : (reσ n t k σ).pars = σ.pars := by unfold reσ; split <;> rfl
theorem reσ_vals (k : ν) (σ : Src) : (reσ n t k σ).vals = σ.vals := by unfold Src.vals; rw [reσ_pars]
theorem reσ_fixed (k : ν) (σ : Src) : (reσ n t k σ).fixed = σ.fixed := by unfold Src.fixed; rw [reσ_pars]
theorem reσ_freeIdx (k : ν) (σ : Src) : (reσ n t k σ).freeIdx = σ.freeIdx := by unfold Src.freeIdx; rw [reσ_pars]

theorem re_setSource (m : MapObj) (k : ν) (σ : Src) : setSource m (reσ n t k σ) = setSource m σ := by
  unfold setSource; rw [reσ_addr, reσ_useEdisp]

theorem re_setSpectral (m : MapObj) (k : ν) (σ : Src) (b : Bool) : setSpectral m (reσ n t k σ) b = setSpectral m σ b := by
  unfold setSpectral; rw [reσ_spec, reσ_vals]

theorem re_changed (m : MapObj) (k : ν) (σ : Src) : spectrumChanged m (reσ n t k σ) = spectrumChanged m σ := by
  unfold spectrumChanged; rw [reσ_vals]

theorem keys_reL (l : List (ν × Src)) : keys (reL n t l) = keys l := by
  unfold keys reL; rw [List.map_map]; rfl

theorem find_reL (l : List (ν × Src)) (k : ν) : find (reL n t l) k = (find l k).map (reσ n t k) := by
  induction l with
  | nil => rfl
  | cons x l ih =>
    obtain ⟨a, σ⟩ := x
    have e0 : reL n t ((a, σ) :: l) = (a, reσ n t a σ) :: reL n t l := rfl
    rw [e0]
    simp only [find]
    by_cases h : a = k
    · simp [h]
    · simp only [h, if_false, ih]

theorem put_reL (l : List (ν × Src)) (k : ν) (σ : Src) : put (reL n t l) k (reσ n t k σ) = reL n t (put l k σ) := by
  induction l with
  | nil => rfl
  | cons x l ih =>
    obtain ⟨a, τ⟩ := x
    have e0 : reL n t ((a, τ) :: l) = (a, reσ n t a τ) :: reL n t l := rfl
    rw [e0]
    simp only [put]
    split
    · subst_vars; rfl
    · split
      · rfl
      · rw [ih]; rfl

theorem erase_reL (l : List (ν × Src)) (k : ν) : erase (reL n t l) k = reL n t (erase l k) := by
  induction l with
  | nil => rfl
  | cons x l ih =>
    obtain ⟨a, τ⟩ := x
    have e0 : reL n t ((a, τ) :: l) = (a, reσ n t a τ) :: reL n t l := rfl
    rw [e0]
    simp only [erase]
    split
    · rfl
    · rw [ih]; rfl

theorem fixedNow_reL (l : List (ν × Src)) : fixedNow (reL n t l) = fixedNow l := by
  unfold fixedNow keys reL
  rw [List.filter_map, List.map_map]
  have : (fun x : ν × Src => x.2.fixed) ∘ (fun x : ν × Src => (x.1, reσ n t x.1 x.2)) = fun x => x.2.fixed := by
    funext x; exact reσ_fixed _ _
  rw [this]
  rfl

theorem priorSum_reL (l : List (ν × Src)) : priorSum (reL n t l) = priorSum l := by
  unfold priorSum reL
  rw [List.map_map]
  congr 1
  apply List.map_congr_left
  intro x _
  simp only [Function.comp_apply, reσ_pars]

theorem priorDerivs_reL (l : List (ν × Src)) : priorDerivs (reL n t l) = priorDerivs l := by
  unfold priorDerivs reL
  rw [List.map_map]
  congr 1
  apply List.map_congr_left
  intro x _
  simp only [Function.comp_apply, reσ_pars]

/-- The states differ in the template of the source `n`, which has a map already. -/
structure Sim (n : ν) (t : Nat → List ℝ) (s s' : St ν) : Prop where
  eq : s' = re n t s
  has : ∃ m, find s.maps n = some m
  sorted : StdMap.Sorted s.maps
  src : ∃ σ, find s.srcs n = some σ
  sortedS : StdMap.Sorted s.srcs

theorem Sim.put {s s' : St ν} (h : Sim n t s s') (k : ν) (m : MapObj) : Sim n t (s.putMap k m) (s'.putMap k m) := by
  refine ⟨by rw [h.eq]; rfl, ?_, StdMap.sorted_put h.sorted _ _, h.src, h.sortedS⟩
  show ∃ m0, find (StdMap.put s.maps k m) n = some m0
  rw [StdMap.find_put h.sorted]
  split
  · exact ⟨m, rfl⟩
  · exact h.has

theorem two_getMap {s s' : St ν} (h : Sim n t s s') (k : ν) (σ : Src) :
    Two (fun x y : St ν × MapObj => Sim n t x.1 y.1 ∧ x.2 = y.2) (getMap e s k σ) (getMap e s' k (reσ n t k σ)) := by
  have hm : s'.maps = s.maps := by rw [h.eq]; rfl
  have hev : s'.cacheEv = s.cacheEv := by rw [h.eq]; rfl
  unfold getMap
  rw [hm, hev]
  cases hf : find s.maps k with
  | some m => exact .ok ⟨by rw [re_setSource]; exact h.put _ _, by rw [re_setSource]⟩
  | none =>
    have hk : k ≠ n := by
      rintro rfl
      obtain ⟨m, hm⟩ := h.has
      rw [hf] at hm; cases hm
    have hs : reσ n t k σ = σ := if_neg hk
    simp only [hs]
    refine (Two.refl (newMap e s.cacheEv σ)).bind ?_
    rintro m _ rfl
    exact .ok ⟨h.put _ _, rfl⟩

theorem two_npred {s s' : St ν} (h : Sim n t s s') (k : ν) (σ : Src) (w : Bool) :
    Two (fun x y : St ν × ℝ => Sim n t x.1 y.1 ∧ x.2 = y.2) (npredValue e s k σ w) (npredValue e s' k (reσ n t k σ) w) := by
  unfold npredValue
  refine (two_getMap h k σ).bind ?_
  rintro ⟨s1, m⟩ ⟨s1', m'⟩ ⟨h1, hm⟩
  simp only at h1 hm ⊢
  subst hm
  rw [re_setSpectral]
  refine (Two.refl _).bind ?_
  rintro m1 _ rfl
  have e1 : s1'.kmin = s1.kmin := by rw [h1.eq]; rfl
  have e2 : s1'.kmax = s1.kmax := by rw [h1.eq]; rfl
  have e3 : edispFlag s1' (reσ n t k σ) = edispFlag s1 σ := by
    unfold edispFlag; rw [reσ_useEdisp, h1.eq]; rfl
  rw [e1, e2, e3]
  refine (Two.refl _).bind ?_
  rintro v _ rfl
  exact .ok ⟨h1.put _ _, rfl⟩

theorem two_addCounts {s s' : St ν} (h : Sim n t s s') (mc : List ℝ) (k : ν) (σ : Src) (b l : Bool) :
    Two (fun x y : St ν × MapObj × List ℝ => Sim n t x.1 y.1 ∧ x.2 = y.2) (addCounts e s mc k σ b l)
      (addCounts e s' mc k (reσ n t k σ) b l) := by
  unfold addCounts
  by_cases hl : mc.length ≠ e.filled.length
  · rw [if_pos hl, if_pos hl]; exact .throws
  · rw [if_neg hl, if_neg hl]
    refine (two_getMap h k σ).bind ?_
    rintro ⟨s1, m⟩ ⟨s1', m'⟩ ⟨h1, hm⟩
    simp only at h1 hm ⊢
    subst hm
    rw [re_setSpectral]
    refine (Two.refl _).bind ?_
    rintro v _ rfl
    exact .ok ⟨h1.put _ _, rfl⟩

theorem two_addFixed {s s' : St ν} (h : Sim n t s s') (k : ν) (σ : Src) :
    Two (Sim n t) (addFixed e s k σ) (addFixed e s' k (reσ n t k σ)) := by
  have hn : s'.fixedNames = s.fixedNames := by rw [h.eq]; rfl
  unfold addFixed
  rw [hn]
  by_cases hk : k ∈ s.fixedNames
  · rw [if_pos hk, if_pos hk]; exact .throws
  · rw [if_neg hk, if_neg hk]
    have h0 : Sim n t { s with fixedNames := s.fixedNames ++ [k] } { s' with fixedNames := s.fixedNames ++ [k] } :=
      ⟨by rw [h.eq]; rfl, h.has, h.sorted, h.src, h.sortedS⟩
    have hc : s'.fixedCounts = s.fixedCounts := by rw [h.eq]; rfl
    have h2 := two_addCounts (e := e) h0 s'.fixedCounts k σ false true
    refine Two.bind (P := fun x y : St ν × MapObj × List ℝ => Sim n t x.1 y.1 ∧ x.2 = y.2)
      (by
        have h3 : addCounts e { s with fixedNames := s.fixedNames ++ [k] } s'.fixedCounts k σ false true =
          addCounts e { s with fixedNames := s.fixedNames ++ [k] } s.fixedCounts k σ false true := by rw [hc]
        rw [h3] at h2
        exact h2) ?_
    rintro ⟨s1, m, mc⟩ ⟨s1', m', mc'⟩ ⟨h1, hm⟩
    simp only at h1 hm ⊢
    cases hm
    have hs : s1'.fixedSpec = s1.fixedSpec := by rw [h1.eq]; rfl
    rw [hs]
    refine (Two.refl _).bind ?_
    rintro sp _ rfl
    exact .ok ⟨by rw [h1.eq]; rfl, h1.has, h1.sorted, h1.src, h1.sortedS⟩

theorem two_buildLoop (rest : List (ν × Src)) {s s' : St ν} (h : Sim n t s s') :
    Two (Sim n t) (buildLoop e rest s) (buildLoop e (reL n t rest) s') := by
  induction rest generalizing s s' with
  | nil => exact .ok h
  | cons x rest ih =>
    obtain ⟨k, σ⟩ := x
    have e0 : reL n t ((k, σ) :: rest) = (k, reσ n t k σ) :: reL n t rest := rfl
    rw [e0]
    unfold buildLoop
    rw [reσ_fixed]
    by_cases hf : σ.fixed = true
    · rw [if_pos hf, if_pos hf]
      exact (two_addFixed h k σ).bind fun s1 s1' h1 => ih h1
    · rw [if_neg hf, if_neg hf]
      refine (two_getMap h k σ).bind ?_
      rintro ⟨s1, m⟩ ⟨s1', m'⟩ ⟨h1, -⟩
      exact ih h1

theorem two_buildFixed {s s' : St ν} (h : Sim n t s s') : Two (Sim n t) (buildFixed e s) (buildFixed e s') := by
  unfold buildFixed
  have hs : s'.srcs = reL n t s.srcs := by rw [h.eq]; rfl
  rw [hs]
  exact two_buildLoop _ ⟨by rw [h.eq]; rfl, h.has, h.sorted, h.src, h.sortedS⟩

theorem two_changedLoop (rest : List (ν × Src)) {s s' : St ν} (h : Sim n t s s') (b : Bool) :
    Two (fun x y : St ν × Bool => Sim n t x.1 y.1 ∧ x.2 = y.2) (changedLoop e rest s b)
      (changedLoop e (reL n t rest) s' b) := by
  induction rest generalizing s s' b with
  | nil => exact .ok ⟨h, rfl⟩
  | cons x rest ih =>
    obtain ⟨k, σ⟩ := x
    have e0 : reL n t ((k, σ) :: rest) = (k, reσ n t k σ) :: reL n t rest := rfl
    rw [e0]
    unfold changedLoop
    rw [reσ_fixed]
    by_cases hf : σ.fixed = true
    · rw [if_pos hf, if_pos hf]
      refine (two_getMap h k σ).bind ?_
      rintro ⟨s1, m⟩ ⟨s1', m'⟩ ⟨h1, hm⟩
      simp only at h1 hm ⊢
      subst hm
      rw [re_changed]
      exact ih h1 _
    · rw [if_neg hf, if_neg hf]
      exact ih h _

theorem two_updateFixed {s s' : St ν} (h : Sim n t s s') : Two (Sim n t) (updateFixed e s) (updateFixed e s') := by
  have hs : s'.srcs = reL n t s.srcs := by rw [h.eq]; rfl
  have hn : s'.fixedNames = s.fixedNames := by rw [h.eq]; rfl
  have hp : s'.fixedSpec = s.fixedSpec := by rw [h.eq]; rfl
  have hu : Two (fun x y : St ν × Bool => Sim n t x.1 y.1 ∧ x.2 = y.2) (fixedModelUpdated e s) (fixedModelUpdated e s') := by
    unfold fixedModelUpdated
    rw [hs, hn, hp, fixedNow_reL]
    by_cases hc : s.fixedSpec.counts.length = 0 ∧ s.fixedNames ≠ []
    · rw [if_pos hc, if_pos hc]; exact .ok ⟨h, rfl⟩
    · rw [if_neg hc, if_neg hc]
      exact two_changedLoop _ h _
  unfold updateFixed
  refine hu.bind ?_
  rintro ⟨s1, b⟩ ⟨s1', b'⟩ ⟨h1, hb⟩
  simp only at h1 hb ⊢
  subst hb
  cases b with
  | true => exact two_buildFixed h1
  | false => exact .ok h1

theorem two_evalLoop (w : Bool) (rest : List (ν × Src)) {s s' : St ν} (h : Sim n t s s') (mc : List ℝ) (np : ℝ) :
    Two (fun x y : St ν × List ℝ × ℝ => Sim n t x.1 y.1 ∧ x.2 = y.2) (evalLoop e w rest s mc np)
      (evalLoop e w (reL n t rest) s' mc np) := by
  induction rest generalizing s s' mc np with
  | nil => exact .ok ⟨h, rfl⟩
  | cons x rest ih =>
    obtain ⟨k, σ⟩ := x
    have e0 : reL n t ((k, σ) :: rest) = (k, reσ n t k σ) :: reL n t rest := rfl
    rw [e0]
    unfold evalLoop
    refine (two_npred h k σ w).bind ?_
    rintro ⟨s1, v⟩ ⟨s1', v'⟩ ⟨h1, hv⟩
    simp only at h1 hv ⊢
    subst hv
    have hn : s1'.fixedNames = s1.fixedNames := by rw [h1.eq]; rfl
    rw [hn]
    by_cases hf : k ∈ s1.fixedNames
    · rw [if_pos hf, if_pos hf]
      exact ih h1 _ _
    · rw [if_neg hf, if_neg hf]
      refine (two_addCounts h1 mc k σ false false).bind ?_
      rintro ⟨s2, m, c⟩ ⟨s2', m', c'⟩ ⟨h2, hm⟩
      simp only at h2 hm ⊢
      cases hm
      exact ih h2 _ _

theorem two_computeModel (w : Bool) {s s' : St ν} (h : Sim n t s s') :
    Two (fun x y : St ν × ℝ => Sim n t x.1 y.1 ∧ x.2 = y.2) (computeModel e w s) (computeModel e w s') := by
  unfold computeModel
  refine (two_updateFixed h).bind ?_
  intro s1 s1' h1
  have hc : s1'.fixedCounts = s1.fixedCounts := by rw [h1.eq]; rfl
  have hf : fixedNpred s1' w = fixedNpred s1 w := by rw [h1.eq]; rfl
  have hs : s1'.srcs = reL n t s1.srcs := by rw [h1.eq]; rfl
  rw [hc, hf, hs]
  refine (Two.refl _).bind ?_
  rintro c _ rfl
  refine (Two.refl _).bind ?_
  rintro np _ rfl
  refine (two_evalLoop w _ h1 c np).bind ?_
  rintro ⟨s2, mc, v⟩ ⟨s2', mc', v'⟩ ⟨h2, hm⟩
  simp only at h2 hm ⊢
  cases hm
  have e1 : s2'.kmin = s2.kmin := by rw [h2.eq]; rfl
  have e2 : s2'.kmax = s2.kmax := by rw [h2.eq]; rfl
  rw [e1, e2]
  refine (Two.refl _).bind ?_
  rintro md _ rfl
  exact .ok ⟨⟨by rw [h2.eq]; rfl, h2.has, h2.sorted, h2.src, h2.sortedS⟩, rfl⟩

theorem two_value {s s' : St ν} (h : Sim n t s s') :
    Two (fun x y : St ν × ℝ => Sim n t x.1 y.1 ∧ x.2 = y.2) (value e s) (value e s') := by
  unfold value
  refine (two_computeModel true h).bind ?_
  rintro ⟨s1, v⟩ ⟨s1', v'⟩ ⟨h1, hv⟩
  simp only at h1 hv ⊢
  subst hv
  have hd : dataTerm e s1' = dataTerm e s1 := by rw [h1.eq]; rfl
  have hp : priorSum s1'.srcs = priorSum s1.srcs := by rw [h1.eq]; exact priorSum_reL _
  rw [hd, hp]
  refine (Two.refl _).bind ?_
  rintro d _ rfl
  exact .ok ⟨h1, rfl⟩

theorem two_derivLoop (dom : List ℝ) (rest : List (ν × Src)) {s s' : St ν} (h : Sim n t s s') :
    Two (fun x y : St ν × List ℝ => Sim n t x.1 y.1 ∧ x.2 = y.2) (derivLoop e dom rest s)
      (derivLoop e dom (reL n t rest) s') := by
  induction rest generalizing s s' with
  | nil => exact .ok ⟨h, rfl⟩
  | cons x rest ih =>
    obtain ⟨k, σ⟩ := x
    have e0 : reL n t ((k, σ) :: rest) = (k, reσ n t k σ) :: reL n t rest := rfl
    rw [e0]
    unfold derivLoop
    have hn : s'.fixedNames = s.fixedNames := by rw [h.eq]; rfl
    rw [hn]
    by_cases hf : k ∈ s.fixedNames
    · rw [if_pos hf, if_pos hf]
      exact ih h
    · rw [if_neg hf, if_neg hf]
      refine (two_getMap h k σ).bind ?_
      rintro ⟨s1, m⟩ ⟨s1', m'⟩ ⟨h1, hm⟩
      simp only at h1 hm ⊢
      subst hm
      have e1 : s1'.kmin = s1.kmin := by rw [h1.eq]; rfl
      have e2 : s1'.kmax = s1.kmax := by rw [h1.eq]; rfl
      rw [re_setSpectral, reσ_freeIdx, reσ_dspec, reσ_vals, e1, e2]
      refine (Two.refl _).bind ?_
      rintro ds _ rfl
      refine (ih (h1.put k _)).bind ?_
      rintro ⟨s2, r⟩ ⟨s2', r'⟩ ⟨h2, hr⟩
      simp only at h2 hr ⊢
      subst hr
      exact .ok ⟨h2, rfl⟩

theorem two_getFreeDerivs {s s' : St ν} (h : Sim n t s s') :
    Two (fun x y : St ν × List ℝ => Sim n t x.1 y.1 ∧ x.2 = y.2) (getFreeDerivs e s) (getFreeDerivs e s') := by
  have hf : Two (fun x y : St ν × ℝ => Sim n t x.1 y.1 ∧ x.2 = y.2) (freshModel e s) (freshModel e s') := by
    unfold freshModel
    have hc : s'.current = s.current := by rw [h.eq]; rfl
    rw [hc]
    by_cases hcc : s.current = true
    · rw [if_pos hcc, if_pos hcc]; exact .ok ⟨h, rfl⟩
    · rw [if_neg hcc, if_neg hcc]; exact two_computeModel true h
  unfold getFreeDerivs
  refine hf.bind ?_
  rintro ⟨s1, v⟩ ⟨s1', v'⟩ ⟨h1, hv⟩
  simp only at h1 hv ⊢
  have hd : dataOverModel e s1' = dataOverModel e s1 := by rw [h1.eq]; rfl
  have hs : s1'.srcs = reL n t s1.srcs := by rw [h1.eq]; rfl
  rw [hd, hs]
  refine (Two.refl _).bind ?_
  rintro dom _ rfl
  refine (two_derivLoop dom _ h1).bind ?_
  rintro ⟨s2, ds⟩ ⟨s2', ds'⟩ ⟨h2, hd2⟩
  simp only at h2 hd2 ⊢
  subst hd2
  have hp : priorDerivs s2'.srcs = priorDerivs s2.srcs := by rw [h2.eq]; exact priorDerivs_reL _
  rw [hp]
  split
  · exact .ub
  · exact .ok ⟨h2, rfl⟩

theorem two_step {s s' : St ν} (h : Sim n t s s') (op : Op ν) (hop : op ≠ .deleteSource n) :
    Two (Sim n t) (step e s op) (step e s' op) := by
  have hs : s'.srcs = reL n t s.srcs := by rw [h.eq]; rfl
  have hfn : s'.fixedNames = s.fixedNames := by rw [h.eq]; rfl
  have hmem : ∀ k σ, find s.srcs k = some σ → k ∈ keys s.srcs := fun k σ hk => StdMap.mem_keys_of_find hk
  cases op with
  | addSource k σ =>
    simp only [step]
    unfold addSource
    rw [hs, keys_reL]
    by_cases hk : k ∈ keys s.srcs
    · rw [if_pos hk, if_pos hk]; exact .throws
    · rw [if_neg hk, if_neg hk]
      have hkn : k ≠ n := by
        rintro rfl
        obtain ⟨τ, hτ⟩ := h.src
        exact hk (hmem _ _ hτ)
      have hσ : reσ n t k σ = σ := if_neg hkn
      have h0 : Sim n t { s with srcs := put s.srcs k σ } { s' with srcs := put (reL n t s.srcs) k σ } := by
        refine ⟨?_, h.has, h.sorted, ?_, StdMap.sorted_put h.sortedS _ _⟩
        · have := put_reL (n := n) (t := t) s.srcs k σ
          rw [hσ] at this
          rw [this, h.eq]; rfl
        · show ∃ τ, find (put s.srcs k σ) n = some τ
          rw [StdMap.find_put h.sortedS, if_neg (Ne.symm hkn)]
          exact h.src
      simp only
      by_cases hf : σ.fixed = true
      · rw [if_pos hf, if_pos hf]
        have := two_addFixed (e := e) h0 k σ
        rw [hσ] at this
        exact this
      · rw [if_neg hf, if_neg hf]
        have := two_getMap (e := e) h0 k σ
        rw [hσ] at this
        refine this.bind ?_
        rintro ⟨s1, m⟩ ⟨s1', m'⟩ ⟨h1, -⟩
        exact .ok h1
  | deleteSource k =>
    have hkn : k ≠ n := fun hh => hop (by rw [hh])
    simp only [step]
    unfold deleteSource
    rw [hs, keys_reL]
    by_cases hk : k ∈ keys s.srcs
    · rw [if_pos hk, if_pos hk]
      have hsub : Two (Sim n t) (subtractFixed e s k) (subtractFixed e s' k) := by
        unfold subtractFixed
        rw [hfn, hs, find_reL]
        by_cases hf : k ∈ s.fixedNames
        · rw [if_pos hf, if_pos hf]
          cases hfs : find s.srcs k with
          | none => exact .throws
          | some σ =>
            simp only [Option.map_some]
            have hc : s'.fixedCounts = s.fixedCounts := by rw [h.eq]; rfl
            rw [hc]
            refine (two_addCounts h _ k σ true false).bind ?_
            rintro ⟨s1, m, mc⟩ ⟨s1', m', mc'⟩ ⟨h1, hm⟩
            simp only at h1 hm ⊢
            cases hm
            have hsp : s1'.fixedSpec = s1.fixedSpec := by rw [h1.eq]; rfl
            rw [hsp]
            refine (Two.refl _).bind ?_
            rintro sp _ rfl
            have hn1 : s1'.fixedNames = s1.fixedNames := by rw [h1.eq]; rfl
            exact .ok ⟨by rw [h1.eq]; rfl, h1.has, h1.sorted, h1.src, h1.sortedS⟩
        · rw [if_neg hf, if_neg hf]; exact .ok h
      refine hsub.bind ?_
      intro s1 s1' h1
      refine .ok ⟨?_, h1.has, h1.sorted, ?_, StdMap.sorted_erase h1.sortedS _⟩
      · rw [h1.eq]
        have := erase_reL (n := n) (t := t) s1.srcs k
        show ({ re n t s1 with srcs := erase (reL n t s1.srcs) k } : St ν) = _
        rw [this]; rfl
      · show ∃ τ, find (erase s1.srcs k) n = some τ
        rw [StdMap.find_erase h1.sortedS, if_neg (Ne.symm hkn)]
        exact h1.src
    · rw [if_neg hk, if_neg hk]; exact .throws
  | setPars k ps sync =>
    simp only [step]
    unfold setPars
    rw [hs, find_reL]
    cases hfs : find s.srcs k with
    | none => exact .throws
    | some σ =>
      simp only [Option.map_some]
      have hσ : { reσ n t k σ with pars := ps } = reσ n t k { σ with pars := ps } := by
        unfold reσ; split <;> rfl
      rw [hσ, put_reL]
      refine .ok ⟨by rw [h.eq]; rfl, h.has, h.sorted, ?_, StdMap.sorted_put h.sortedS _ _⟩
      show ∃ τ, find (put s.srcs k { σ with pars := ps }) n = some τ
      rw [StdMap.find_put h.sortedS]
      split
      · exact ⟨_, rfl⟩
      · exact h.src
  | setKlims a b =>
    simp only [step]
    exact .ok ⟨by rw [h.eq]; rfl, h.has, h.sorted, h.src, h.sortedS⟩
  | value =>
    simp only [step]
    exact (two_value h).bind fun a b hab => .ok hab.1
  | getFreeDerivs =>
    simp only [step]
    exact (two_getFreeDerivs h).bind fun a b hab => .ok hab.1

theorem two_run (ops : List (Op ν)) {s s' : St ν} (h : Sim n t s s') (hop : ∀ op ∈ ops, op ≠ .deleteSource n) :
    Two (Sim n t) (run e s ops) (run e s' ops) := by
  induction ops generalizing s s' with
  | nil => exact .ok h
  | cons op ops ih =>
    simp only [run]
    have := two_step (e := e) h op (hop op (by simp))
    generalize step e s op = r at this
    generalize step e s' op = r' at this
    cases this with
    | ok h1 => exact ih h1 (fun o ho => hop o (by simp [ho]))
    | throws => exact ih h (fun o ho => hop o (by simp [ho]))
    | ub => exact .ub

end Verif.Redata
