import Verif.Snap.Lemmas2
/-
C57 (second part): after an update the scan cache agrees with the model.
-/
set_option linter.unusedSectionVars false
set_option linter.unusedSimpArgs false
set_option linter.unusedVariables false
set_option linter.unnecessarySeqFocus false
namespace Verif.Snap
open Spec FitUtils

variable {κ : Type} [LinearOrder κ]

/-- The stored part of the cache (not what is currently scanned) agrees with the model. -/
structure Stored (shape : Shape κ) (nbins : Nat) (test : κ) (names : List κ) (m : List (κ × Src κ))
    (c : Cache κ) : Prop where
  namesEq : c.names = names
  sorted : names.Pairwise (· < ·)
  mem : ∀ n ∈ names, n ∈ m.map Prod.fst
  notTest : test ∉ names
  refs : c.refs.length = names.length ∧ ∀ r ∈ c.refs, r ≠ 0
  models : c.models = List.zipWith (atRef shape) (m.filter (·.1 ∈ names)) c.refs
  fixed : c.fixed.length = nbins ∧
    ∀ b, bin c.fixed b = sumCounts shape (m.filter fun p => p.1 ≠ test ∧ p.1 ∉ names) b
  others : ∀ n s, (n, s) ∈ m → n ≠ test → n ∉ names → s.norm.free = false

/-- What is currently scanned is that of the model, followed by the test source if it is
included. -/
def Current (shape : Shape κ) (nbins : Nat) (test : κ) (m : List (κ × Src κ)) (c : Cache κ) : Prop :=
  ∃ models pars v, InLine shape nbins test m c.curFixed pars c.curRefs models ∧
    c.curModels = models ++ (if c.curTest then [c.target] else []) ∧
    c.curPars = pars ++ (if c.curTest then [v] else [])

theorem free_split {test : κ} {names : List κ} {m : List (κ × Src κ)}
    (hnt : test ∉ names)
    (ho : ∀ n s, (n, s) ∈ m → n ≠ test → n ∉ names → s.norm.free = false) :
    (m.filter (·.1 ∈ names)).filter (fun p => p.2.norm.free) = freeSources test m := by
  rw [List.filter_filter, freeSources]
  apply List.filter_congr
  rintro ⟨n, s⟩ hp
  by_cases h1 : n ∈ names
  · have : n ≠ test := fun h => hnt (h ▸ h1)
    simp [h1, this]
  · by_cases h2 : n = test
    · simp [h1, h2]
      intro hf; exact hnt
    · simp [h1, h2, ho n s hp h2 h1]

theorem sum_split {α : Type} (l : List α) (p q : α → Bool) (f : α → ℝ)
    (h : ∀ x ∈ l, ¬ (p x = true ∧ q x = true)) :
    ((l.filter p).map f).sum + ((l.filter q).map f).sum = ((l.filter fun x => p x || q x).map f).sum := by
  induction l with
  | nil => simp
  | cons a l ih =>
    have ih := ih fun x hx => h x (List.mem_cons_of_mem _ hx)
    have := h a (by simp)
    cases hp : p a <;> cases hq : q a <;> simp [List.filter_cons, hp, hq] at this ⊢ <;> linarith

theorem fixed_split {shape : Shape κ} {test : κ} {names : List κ} {m : List (κ × Src κ)}
    (hnt : test ∉ names)
    (ho : ∀ n s, (n, s) ∈ m → n ≠ test → n ∉ names → s.norm.free = false) (b : Nat) :
    sumCounts shape (m.filter fun p => p.1 ≠ test ∧ p.1 ∉ names) b +
      sumCounts shape ((m.filter (·.1 ∈ names)).filter fun p => p.2.norm.free = false) b =
      sumCounts shape (fixedSources test m) b := by
  rw [List.filter_filter]
  simp only [sumCounts]
  rw [sum_split _ _ _ _ (by
    rintro ⟨n, s⟩ hp
    simp only [Bool.and_eq_true, decide_eq_true_eq]
    tauto)]
  congr 2
  apply List.filter_congr
  rintro ⟨n, s⟩ hp
  by_cases h1 : n ∈ names
  · have : n ≠ test := fun h => hnt (h ▸ h1)
    simp [h1, this]
  · by_cases h2 : n = test
    · simp [h1, h2, hnt]
    · simp [h1, h2, ho n s hp h2 h1]

theorem filter_find {m : List (κ × Src κ)} (hm : IsModel m) (q : κ × Src κ → Bool) :
    ∀ p ∈ m.filter q, StdMap.find m p.1 = some p.2 := by
  rintro ⟨n, s⟩ hp
  exact (mem_iff hm).1 (List.mem_filter.1 hp).1

/-- What refactoring leaves alone. -/
def Kept (c c' : Cache κ) : Prop :=
  c'.names = c.names ∧ c'.models = c.models ∧ c'.fixed = c.fixed ∧ c'.refs = c.refs ∧
    c'.target = c.target ∧ c'.snap = c.snap

theorem refactorModel_kept {c c' : Cache κ} {free : List Bool} {scales : List ℝ} {test : Bool}
    (h : refactorModel c free scales test = .ok c') : Kept c c' := by
  rw [refactorModel] at h
  obtain ⟨x, _, h⟩ := Res.bind_eq_ok.1 h
  obtain ⟨y, _, h⟩ := Res.bind_eq_ok.1 h
  simp only [Res.ok.injEq] at h
  subst h
  exact ⟨rfl, rfl, rfl, rfl, rfl, rfl⟩

theorem setCache_kept {c c' : Cache κ} (h : setCache c = .ok c') : Kept c c' := refactorModel_kept h

theorem refactorFromModel_kept {c c' : Cache κ} {m : List (κ × Src κ)}
    (h : refactorFromModel m c = .ok c') : Kept c c' := by
  rw [refactorFromModel] at h
  obtain ⟨x, _, h⟩ := Res.bind_eq_ok.1 h
  exact refactorModel_kept h

/-- Refactoring from the model brings the scanned part in line. -/
theorem refactorFromModel_ok {shape : Shape κ} {nbins : Nat} (hl : ∀ a b c, (shape a b c).length = nbins)
    {test : κ} {names : List κ} {m : List (κ × Src κ)} (hm : IsModel m) {c : Cache κ}
    (h : Stored shape nbins test names m c) :
    ∃ c', refactorFromModel m c = .ok c' ∧ Current shape nbins test m c' ∧
      Stored shape nbins test names m c' ∧ c'.snap = c.snap ∧ c'.target = c.target ∧
      c'.curTest = c.curTest := by
  have hnames := names_eq hm.1 h.sorted h.mem
  have hlen : (m.filter (·.1 ∈ names)).length = c.refs.length := by
    have := congrArg List.length hnames
    rw [List.length_map] at this
    rw [h.refs.1, ← this]
  have hss := statusAndScales_ok m (m.filter (·.1 ∈ names)) c.refs 0 (filter_find hm _) (by omega)
  rw [← hnames, List.drop_zero] at hss
  obtain ⟨fixed', a1, a2, a3⟩ := refactor_fixed shape nbins hl (m.filter (·.1 ∈ names)) c.refs
    (List.zipWith (fun p r => p.2.norm.value / r) (m.filter (·.1 ∈ names)) c.refs) c.fixed 0 [] []
    hlen h.refs.2 (by simp [hlen]) (by simp [hlen]) h.fixed.1
  have hcr := curRefs_ok ((m.filter (·.1 ∈ names)).map fun p => p.2.norm.free) c.refs 0 (by simp [hlen])
  rw [List.drop_zero] at hcr
  have hmod : refactorModels c.models c.fixed
      (List.zipWith (fun p r => p.2.norm.value / r) (m.filter (·.1 ∈ names)) c.refs)
      ((m.filter (·.1 ∈ names)).map fun p => p.2.norm.free) (if c.curTest then some c.target else none) =
      .ok (freeOf c.models ((m.filter (·.1 ∈ names)).map fun p => p.2.norm.free) ++
          (if c.curTest then [c.target] else []), fixed',
        freeOf (List.zipWith (fun p r => p.2.norm.value / r) (m.filter (·.1 ∈ names)) c.refs)
          ((m.filter (·.1 ∈ names)).map fun p => p.2.norm.free) ++ (if c.curTest then [0] else [])) := by
    rw [refactorModels, if_neg (by rw [h.models]; simp [hlen]), h.models, a1]
    simp only [Res.bind_ok, List.nil_append]
    cases c.curTest <;> simp
  refine ⟨{ c with
      curModels := freeOf c.models ((m.filter (·.1 ∈ names)).map fun p => p.2.norm.free) ++
        (if c.curTest then [c.target] else []),
      curFixed := fixed',
      curPars := freeOf (List.zipWith (fun p r => p.2.norm.value / r) (m.filter (·.1 ∈ names)) c.refs)
        ((m.filter (·.1 ∈ names)).map fun p => p.2.norm.free) ++ (if c.curTest then [0] else []),
      curRefs := freeOf c.refs ((m.filter (·.1 ∈ names)).map fun p => p.2.norm.free),
      curTest := c.curTest }, by
    simp only [refactorFromModel]
    rw [show statusAndScales m c.refs 0 c.names = statusAndScales m c.refs 0 names by rw [h.namesEq],
      hss, Res.bind_ok]
    show refactorModel c _ _ _ = _
    rw [refactorModel, hmod, Res.bind_ok]
    simp only [hcr, Res.bind_ok], ?_, ?_, rfl, rfl, rfl⟩
  · refine ⟨freeOf c.models ((m.filter (·.1 ∈ names)).map fun p => p.2.norm.free),
      freeOf (List.zipWith (fun p r => p.2.norm.value / r) (m.filter (·.1 ∈ names)) c.refs)
        ((m.filter (·.1 ∈ names)).map fun p => p.2.norm.free), 0, ⟨?_, ?_, ?_, ?_⟩, rfl, rfl⟩
    · refine ⟨a2, fun b => ?_⟩
      show bin fixed' b = _
      rw [a3, h.fixed.2, fixed_split h.notTest h.others]
    · refine ⟨?_, fun r hr => h.refs.2 r (freeOf_mem hr)⟩
      rw [← free_split h.notTest h.others]
      exact freeOf_length' _ _ _ hlen
    · rw [← free_split h.notTest h.others, h.models]
      exact freeOf_zipWith (atRef shape) _ _ _ hlen
    · rw [← free_split h.notTest h.others]
      exact freeOf_zipWith (fun p r => p.2.norm.value / r) _ _ _ hlen
  · exact ⟨h.namesEq, h.sorted, h.mem, h.notTest, h.refs, h.models, h.fixed, h.others⟩

/-- `setCache` succeeds and keeps the stored part. -/
theorem setCache_ok {shape : Shape κ} {nbins : Nat} (hl : ∀ a b c, (shape a b c).length = nbins)
    {test : κ} {names : List κ} {m : List (κ × Src κ)} (hm : IsModel m) {c : Cache κ}
    (h : Stored shape nbins test names m c) :
    ∃ c', setCache c = .ok c' ∧ Stored shape nbins test names m c' ∧ c'.snap = c.snap ∧
      c'.target = c.target ∧ c'.curTest = false := by
  have hnames := names_eq hm.1 h.sorted h.mem
  have hlen : (m.filter (·.1 ∈ names)).length = c.refs.length := by
    have := congrArg List.length hnames
    rw [List.length_map] at this
    rw [h.refs.1, ← this]
  have hml : c.models.length = c.refs.length := by rw [h.models]; simp [hlen]
  obtain ⟨fixed', a1, -, -⟩ := refactorLoop_ok (List.replicate c.models.length 1) c.models
    (List.replicate c.models.length true) 0 [] c.fixed [] (List.replicate c.models.length 1)
    (by simp) (by simp) (by simp) (by
      intro t ht
      rw [h.models] at ht
      obtain ⟨i, hi, rfl⟩ := List.mem_iff_getElem.1 ht
      simp [atRef, hl, h.fixed.1]) (by simp)
  have hcr := curRefs_ok (List.replicate c.models.length true) c.refs 0 (by simp [hml])
  refine ⟨{ c with
      curModels := [] ++ freeOf c.models (List.replicate c.models.length true),
      curFixed := fixed',
      curPars := [] ++ freeOf (((List.replicate c.models.length (1 : ℝ)).drop 0).take c.models.length)
        (List.replicate c.models.length true),
      curRefs := freeOf (c.refs.drop 0) (List.replicate c.models.length true),
      curTest := false }, by
    rw [setCache, refactorModel, refactorModels, if_neg (by simp), a1]
    simp only [Res.bind_ok, hcr, Bool.false_eq_true, if_false], ?_, rfl, rfl, rfl⟩
  exact ⟨h.namesEq, h.sorted, h.mem, h.notTest, h.refs, h.models, h.fixed, h.others⟩

/-! ### Updating the stored part -/

/-- Template `i` is that of the model. -/
def Right (shape : Shape κ) (m : List (κ × Src κ)) (c : Cache κ) (i : Nat) (n : κ) : Prop :=
  ∃ t r, StdMap.find m n = some t ∧ c.refs[i]? = some r ∧ c.models[i]? = some (atRef shape (n, t) r)

theorem zip_right {shape : Shape κ} {m : List (κ × Src κ)} (hm : IsModel m) {names : List κ} {c : Cache κ}
    (hnames : names = (m.filter (·.1 ∈ names)).map Prod.fst) (hr : c.refs.length = names.length)
    (hl : c.models.length = names.length) :
    c.models = List.zipWith (atRef shape) (m.filter (·.1 ∈ names)) c.refs ↔
      ∀ (i : Nat) n, names[i]? = some n → Right shape m c i n := by
  have hlen : (m.filter (·.1 ∈ names)).length = c.refs.length := by
    have := congrArg List.length hnames
    rw [List.length_map] at this
    omega
  have hget : ∀ (i : Nat) n, names[i]? = some n → ∃ t r, StdMap.find m n = some t ∧ c.refs[i]? = some r ∧
      (List.zipWith (atRef shape) (m.filter (·.1 ∈ names)) c.refs)[i]? =
        some (atRef shape (n, t) r) := by
    intro i n hi
    obtain ⟨hi1, hi2⟩ := List.getElem?_eq_some_iff.1 hi
    have hi3 : i < (m.filter (·.1 ∈ names)).length := by omega
    have hi4 : i < c.refs.length := by omega
    have e1 : ((m.filter (·.1 ∈ names))[i]).1 = n := by
      have h1 : ((m.filter (·.1 ∈ names)).map Prod.fst)[i]? = some n := by rw [← hnames]; exact hi
      rw [List.getElem?_map, List.getElem?_eq_getElem hi3] at h1
      simpa using h1
    refine ⟨((m.filter (·.1 ∈ names))[i]).2, c.refs[i], ?_, List.getElem?_eq_getElem hi4, ?_⟩
    · rw [← e1]; exact filter_find hm _ _ (List.getElem_mem hi3)
    · rw [List.getElem?_zipWith, List.getElem?_eq_getElem hi3, List.getElem?_eq_getElem hi4, ← e1]
  constructor
  · intro h i n hi
    obtain ⟨t, r, h1, h2, h3⟩ := hget i n hi
    exact ⟨t, r, h1, h2, by rw [h]; exact h3⟩
  · intro h
    apply List.ext_getElem?
    intro i
    by_cases hi : i < names.length
    · obtain ⟨t, r, h1, h2, h3⟩ := hget i _ (List.getElem?_eq_getElem hi)
      obtain ⟨t', r', h1', h2', h3'⟩ := h i _ (List.getElem?_eq_getElem hi)
      rw [h1] at h1'; rw [h2] at h2'
      obtain rfl := Option.some.inj h1'
      obtain rfl := Option.some.inj h2'
      rw [h3, h3']
    · rw [List.getElem?_eq_none (by omega), List.getElem?_eq_none (by
        rw [List.length_zipWith]; omega)]

theorem templateIndex_ok {names : List κ} {n : κ} (h : n ∈ names) :
    ∃ i, templateIndex names n = some i ∧ names[i]? = some n := by
  cases hf : templateIndex names n with
  | none =>
    rw [templateIndex, List.findIdx?_eq_none_iff] at hf
    exact absurd (hf n h) (by simp)
  | some i =>
    refine ⟨i, rfl, ?_⟩
    rw [templateIndex, List.findIdx?_eq_some_iff_getElem] at hf
    obtain ⟨hi, h1, _⟩ := hf
    rw [List.getElem?_eq_getElem hi]
    simpa using h1

/-- One template is made anew. -/
theorem updateTemplate_ok {shape : Shape κ} {m : List (κ × Src κ)} {names : List κ} {c : Cache κ}
    (hnd : names.Nodup) (hn : c.names = names) (hr : c.refs.length = names.length)
    (hl : c.models.length = names.length) {n : κ} {t : Src κ} (hin : n ∈ names)
    (ht : StdMap.find m n = some t) (hpos : 0 < t.norm.value) :
    ∃ ms, updateTemplate (counts shape) m c n = .ok { c with models := ms } ∧
      ms.length = names.length ∧
      (∀ (i : Nat), names[i]? = some n → Right shape m { c with models := ms } i n) ∧
      ∀ (i : Nat) k, names[i]? = some k → k ≠ n → ms[i]? = c.models[i]? := by
  obtain ⟨j, h1, h2⟩ := templateIndex_ok hin
  have hj : j < names.length := (List.getElem?_eq_some_iff.1 h2).1
  have hj' : j < c.refs.length := by omega
  have hm : (counts shape t).map (· * (c.refs[j] / t.norm.value)) = atRef shape (n, t) c.refs[j] := by
    simp only [counts, atRef, List.map_map]
    apply List.map_congr_left
    intro x _
    simp only [Function.comp_apply]
    field_simp
  refine ⟨c.models.set j (atRef shape (n, t) c.refs[j]), ?_, by simp [hl], ?_, ?_⟩
  · simp only [updateTemplate, hn, h1, ht, vget_lt _ _ hj', Res.bind_ok, if_pos hpos, gt_iff_lt]
    rw [hm, vset_lt _ _ _ (by omega), Res.bind_ok]
  · intro i hi
    have : i = j := by
      obtain ⟨a1, a2⟩ := List.getElem?_eq_some_iff.1 hi
      obtain ⟨b1, b2⟩ := List.getElem?_eq_some_iff.1 h2
      exact (List.Nodup.getElem_inj_iff hnd).1 (a2.trans b2.symm)
    subst this
    refine ⟨t, c.refs[i], ht, List.getElem?_eq_getElem hj', ?_⟩
    simp [List.getElem?_set, hl, hj]
  · intro i k hi hk
    have : j ≠ i := by
      rintro rfl; rw [h2] at hi; exact hk (Option.some.inj hi).symm
    rw [List.getElem?_set_ne this]

theorem updateTemplates_ok {shape : Shape κ} {m : List (κ × Src κ)} {names : List κ} (hnd : names.Nodup) :
    ∀ (ch : List κ) (c : Cache κ), c.names = names → c.refs.length = names.length →
    c.models.length = names.length →
    (∀ n ∈ ch, n ∈ names ∧ ∃ t, StdMap.find m n = some t ∧ 0 < t.norm.value) →
    (∀ (i : Nat) n, names[i]? = some n → n ∈ ch ∨ Right shape m c i n) →
    ∃ ms, ch.foldlM (updateTemplate (counts shape) m) c = .ok { c with models := ms } ∧
      ms.length = names.length ∧ ∀ (i : Nat) n, names[i]? = some n → Right shape m { c with models := ms } i n
  | [], c, hn, hr, hl, _, h => ⟨c.models, rfl, hl, fun i n hi => by simpa using h i n hi⟩
  | k :: ch, c, hn, hr, hl, hch, h => by
    obtain ⟨hk, t, ht, hpos⟩ := hch k (by simp)
    obtain ⟨ms, a1, a2, a3, a4⟩ := updateTemplate_ok (shape := shape) hnd hn hr hl hk ht hpos
    rw [List.foldlM_cons, a1, Res.bind_ok]
    obtain ⟨ms', b1, b2, b3⟩ := updateTemplates_ok (shape := shape) (m := m) hnd ch { c with models := ms } hn hr a2
      (fun n hn => hch n (List.mem_cons_of_mem _ hn)) (by
        intro i n hi
        by_cases hkn : n = k
        · subst hkn; exact Or.inr (a3 i hi)
        · rcases h i n hi with h' | ⟨t, r, c1, c2, c3⟩
          · rcases List.mem_cons.1 h' with h' | h'
            · exact absurd h' hkn
            · exact Or.inl h'
          · exact Or.inr ⟨t, r, c1, c2, by rw [← c3]; exact a4 i n hi hkn⟩)
    exact ⟨ms', b1, b2, b3⟩

/-- The bits of an action without rebuild. -/
theorem action_nonzero {d : Diff κ} (hr : hit (actionOf d) rebuild = false)
    (h0 : actionOf d ≠ 0) : hit (actionOf d) (refactor ||| remakePrior) = true := by
  by_cases hc : d.newFree ≠ [] ∨ hit d.unlatched sourceFreed = true
  · rw [actionOf, if_pos hc] at hr; exact absurd hr (by decide)
  · rw [actionOf, if_neg hc] at h0 ⊢
    revert h0
    split <;> split <;> split <;> split <;> decide

theorem hit_or_mask (a m k : Nat) : hit a (m ||| k) = (hit a m || hit a k) := by
  rw [Bool.eq_iff_iff]
  simp only [hit, Nat.and_or_distrib_left, Bool.or_eq_true, bne_iff_ne, ne_eq, Nat.or_eq_zero_iff]
  tauto

/-- The update, in the order of its steps. -/
theorem updateWithAction_eq (cnt : Src κ → List ℝ) (nbins : Nat) (test : κ) (unit : Bool)
    (model : List (κ × Src κ)) (c : Cache κ) (a : Nat) (ch : List κ) (hr : hit a rebuild = false)
    (h0 : a ≠ 0) (hx : hit a (refactor ||| remakePrior) = true) :
    updateWithAction cnt nbins test unit model c a ch = (do
      let c ← onlyIf (hit a updateFixed) (updateFixedPart cnt nbins test model) c
      let c ← onlyIf (hit a updateFree) (fun c => ch.foldlM (updateTemplate cnt model) c) c
      let c ← onlyIf (hit a (updateFixed ||| updateFree)) setCache c
      let c ← refactorFromModel model c
      .ok { c with snap := latchModel model }) := by
  rw [updateWithAction, if_neg (by simp [hr]), if_neg h0]
  simp only [hx, onlyIf, if_true]

/-- The cache follows a gentle change. -/
theorem update_ok {shape : Shape κ} {nbins : Nat} (hl : ∀ a b c, (shape a b c).length = nbins)
    (unit : Bool) {test : κ} {names : List κ} {old new : List (κ × Src κ)} (ho : IsModel old)
    (hg : Gentle names old new) {c : Cache κ} (hs : c.snap = latchModel old)
    (hst : Stored shape nbins test names old c) (hcur : Current shape nbins test old c) :
    ∃ c', update (counts shape) nbins test unit new c = .ok c' ∧ c'.snap = latchModel new ∧
      Stored shape nbins test names new c' ∧ Current shape nbins test new c' ∧ c'.target = c.target ∧
      (Recomputed names old new → c'.curTest = false) ∧
      (¬ Recomputed names old new → c'.curTest = c.curTest) := by
  have hn := hg.model
  obtain ⟨a, ch, e, hreb⟩ := C57_rebuild old new ho hn names
  have hr : hit a rebuild = false := by
    rw [← Bool.not_eq_true, hreb]
    rintro (⟨n, t, h1, h2⟩ | ⟨n, s, t, h1, h2, h3, h4⟩)
    · rw [hg.added n t h1] at h2; cases h2
    · rw [hg.freed n s t h1 h2 h3] at h4; cases h4
  obtain ⟨A1, A2, A3, A4, A5⟩ := C57_action_partial old new ho hn names
    (fun n s t h1 h2 => ⟨(hg.types n s t h1 h2).1, (hg.types n s t h1 h2).2.1⟩) a ch e hr
  have hX : hit a (updateFixed ||| updateFree) = true ↔ Recomputed names old new := by
    rw [hit_or_mask, Bool.or_eq_true, A1, A2, or_assoc]; rfl
  have hupd : update (counts shape) nbins test unit new c =
      updateWithAction (counts shape) nbins test unit new c a ch := by
    rw [update, hs, hst.namesEq, e]; rfl
  rw [hupd]
  have hmem : ∀ n ∈ names, n ∈ new.map Prod.fst := by
    intro n h
    by_contra hc
    exact hg.kept n h ⟨hst.mem n h, hc⟩
  have hboth : ∀ n ∈ names, ∃ s t, Both old new n s t := by
    intro n h
    obtain ⟨⟨k, s⟩, h1, rfl⟩ := List.mem_map.1 (hst.mem n h)
    obtain ⟨⟨k', t⟩, h2, h3⟩ := List.mem_map.1 (hmem _ h)
    simp only at h3; subst h3
    exact ⟨s, t, h1, h2⟩
  by_cases h0 : a = 0
  · subst h0
    have hnX : ¬ Recomputed names old new := by rw [← hX, hit_zero]; simp
    simp only [hit_zero, Bool.false_eq_true, false_iff, not_or, not_exists] at A1 A2 A3 A4
    have hsame : ∀ n s t, Both old new n s t → s = t := by
      intro n s t hb
      apply hg.sharp n s t hb
      by_cases hin : n ∈ names
      · have h1 := A2 n s t
        have h3 := A3.2.2 n s t
        have h4 := A4 n s t
        have ht := hg.types n s t hin hb
        simp only [hin, hb, true_and, not_not, not_or, ne_eq] at h1 h3 h4
        exact ⟨⟨h3.1, h3.2, h4⟩, ht.1.1, h1.1, ht.2.1.1, h1.2⟩
      · by_contra hc
        exact A1.2 n ⟨hin, Or.inr ⟨s, t, hb, hc⟩⟩
    have heq : old = new := by
      apply ext_mem ho.1 hn.1
      rintro ⟨n, s⟩
      constructor
      · intro h
        by_cases hin : n ∈ new.map Prod.fst
        · obtain ⟨⟨k, t⟩, h2, h3⟩ := List.mem_map.1 hin
          simp only at h3; subst h3
          have := hsame k s t ⟨h, h2⟩
          subst this; exact h2
        · exfalso
          by_cases hk : n ∈ names
          · exact hin (hmem n hk)
          · exact A1.2 n ⟨hk, Or.inl ⟨key_mem h, hin⟩⟩
      · intro h
        by_cases hin : n ∈ old.map Prod.fst
        · obtain ⟨⟨k, t⟩, h2, h3⟩ := List.mem_map.1 hin
          simp only at h3; subst h3
          have := hsame k t s ⟨h2, h⟩
          subst this; exact h2
        · exact absurd ⟨h, hin⟩ (A1.1 n s)
    subst heq
    refine ⟨c, ?_, hs, hst, hcur, rfl, fun h => absurd h hnX, fun _ => rfl⟩
    rw [updateWithAction, if_neg (by simp [hr]), if_pos rfl]
  · have hx : hit a (refactor ||| remakePrior) = true := by
      rw [findAction] at e
      obtain ⟨d, _, e2⟩ := Res.bind_eq_ok.1 e
      simp only [Res.ok.injEq, Prod.mk.injEq] at e2
      rw [← e2.1] at hr h0 ⊢
      exact action_nonzero hr h0
    rw [updateWithAction_eq _ _ _ _ _ _ _ _ hr h0 hx]
    have hoth : ∀ n s, (n, s) ∈ new → n ≠ test → n ∉ names → s.norm.free = false := by
      intro n t h1 h2 h3
      by_cases hin : n ∈ old.map Prod.fst
      · obtain ⟨⟨k, s⟩, h4, h5⟩ := List.mem_map.1 hin
        simp only at h5; subst h5
        exact hg.freed k s t h3 ⟨h4, h1⟩ (hst.others k s h4 h2 h3)
      · exact hg.added n t ⟨h1, hin⟩
    -- the fixed part
    have hF : ∃ f, onlyIf (hit a updateFixed) (updateFixedPart (counts shape) nbins test new) c =
        .ok { c with fixed := f } ∧ f.length = nbins ∧
        ∀ b, bin f b = sumCounts shape (new.filter fun p => p.1 ≠ test ∧ p.1 ∉ names) b := by
      cases hu : hit a updateFixed with
      | true =>
        obtain ⟨f, b1, b2, b3⟩ := extractFixed_ok (cnt := counts shape) (nbins := nbins)
          (fun s => by simp [counts, hl]) test names new (List.replicate nbins 0) (by simp)
        refine ⟨f, ?_, b2, ?_⟩
        · simp only [onlyIf, if_true, updateFixedPart, extractFixed, hst.namesEq]
          rw [b1, Res.bind_ok]
        · intro b
          rw [b3, sumCounts]
          have hz : bin (List.replicate nbins (0 : ℝ)) b = 0 := by
            simp only [bin, List.getD_eq_getElem?_getD, List.getElem?_replicate]
            split <;> simp
          rw [hz, zero_add]
          congr 2
          apply List.filter_congr
          rintro ⟨n, s⟩ hp
          by_cases h1 : n = test
          · simp [h1]
          · by_cases h2 : n ∈ names
            · simp [h2]
            · simp [h1, h2, hoth n s hp h1 h2]
      | false =>
        refine ⟨c.fixed, by simp [onlyIf], hst.fixed.1, ?_⟩
        intro b
        rw [hst.fixed.2]
        congr 1
        rw [hu] at A1
        simp only [Bool.false_eq_true, false_iff, not_or, not_exists] at A1
        apply ext_mem (sorted_filter ho.1 _) (sorted_filter hn.1 _)
        rintro ⟨n, s⟩
        simp only [List.mem_filter, decide_eq_true_eq]
        constructor
        · rintro ⟨h1, h2, h3⟩
          refine ⟨?_, h2, h3⟩
          by_contra hc
          apply A1.2 n
          refine ⟨h3, ?_⟩
          by_cases hin : n ∈ new.map Prod.fst
          · obtain ⟨⟨k, t⟩, h4, h5⟩ := List.mem_map.1 hin
            simp only at h5; subst h5
            refine Or.inr ⟨s, t, ⟨h1, h4⟩, fun hS => ?_⟩
            have := hg.sharp k s t ⟨h1, h4⟩ hS
            subst this; exact hc h4
          · exact Or.inl ⟨key_mem h1, hin⟩
        · rintro ⟨h1, h2, h3⟩
          refine ⟨?_, h2, h3⟩
          by_cases hin : n ∈ old.map Prod.fst
          · obtain ⟨⟨k, t⟩, h4, h5⟩ := List.mem_map.1 hin
            simp only at h5; subst h5
            by_contra hc
            apply A1.2 k
            refine ⟨h3, Or.inr ⟨t, s, ⟨h4, h1⟩, fun hS => ?_⟩⟩
            have := hg.sharp k t s ⟨h4, h1⟩ hS
            subst this; exact hc h4
          · exact absurd ⟨h1, hin⟩ (A1.1 n s)
    obtain ⟨f, f1, f2, f3⟩ := hF
    rw [f1, Res.bind_ok]
    -- the templates
    have hnamesO := names_eq ho.1 hst.sorted hst.mem
    have hnamesN := names_eq hn.1 hst.sorted hmem
    have hlenO : (old.filter (·.1 ∈ names)).length = c.refs.length := by
      have := congrArg List.length hnamesO
      rw [List.length_map] at this
      rw [hst.refs.1, ← this]
    have hml : c.models.length = names.length := by
      rw [hst.models, ← hst.refs.1]; simp [hlenO]
    have hright := (zip_right (shape := shape) (c := c) ho hnamesO hst.refs.1 hml).1 hst.models
    have hkeep : ∀ (i : Nat) n, names[i]? = some n → (n ∉ ch ∨ hit a updateFree = false) →
        Right shape new c i n := by
      intro i n hi hc
      have hin : n ∈ names := List.mem_of_getElem? hi
      obtain ⟨s, t, hb⟩ := hboth n hin
      obtain ⟨s', r, h1, h2, h3⟩ := hright i n hi
      rw [(mem_iff ho).1 hb.1] at h1
      obtain rfl := Option.some.inj h1
      have hsh : s.spec = t.spec ∧ s.funcs = t.funcs ∧ s.norm.scale = t.norm.scale := by
        rcases hc with hc | hc
        · have : s = t := by
            apply hg.sharp n s t hb
            by_contra hS
            exact hc ((A5 n).2 ⟨hin, Or.inr ⟨s, t, hb, hS⟩⟩)
          subst this; exact ⟨rfl, rfl, rfl⟩
        · rw [hc] at A2
          simp only [Bool.false_eq_true, false_iff, not_exists] at A2
          have := A2 n s t
          simp only [hin, hb, true_and, not_not] at this
          obtain ⟨q1, q2⟩ := hg.shape n s t hin hb this.1 this.2
          exact ⟨q1, q2, (hg.types n s t hin hb).2.2⟩
      refine ⟨t, r, (mem_iff hn).1 hb.2, h2, ?_⟩
      rw [h3]
      simp only [atRef, hsh.1, hsh.2.1, hsh.2.2]
    have hT : ∃ ms, onlyIf (hit a updateFree)
          (fun c => ch.foldlM (updateTemplate (counts shape) new) c) { c with fixed := f } =
        .ok { c with fixed := f, models := ms } ∧ ms.length = names.length ∧
        ∀ (i : Nat) n, names[i]? = some n → Right shape new { c with fixed := f, models := ms } i n := by
      cases hu : hit a updateFree with
      | false =>
        exact ⟨c.models, by simp [onlyIf], hml, fun i n hi => hkeep i n hi (Or.inr hu)⟩
      | true =>
        obtain ⟨ms, m1, m2, m3⟩ := updateTemplates_ok (shape := shape) (m := new)
          (names := names) (hst.sorted.imp fun h => h.ne) ch { c with fixed := f } hst.namesEq
          hst.refs.1 hml (by
            intro n hnc
            obtain ⟨h1, h2⟩ := (A5 n).1 hnc
            obtain ⟨s, t, hb⟩ := hboth n h1
            exact ⟨h1, t, (mem_iff hn).1 hb.2, hg.positive n t h1 h2 hb.2⟩) (by
            intro i n hi
            by_cases hc : n ∈ ch
            · exact Or.inl hc
            · exact Or.inr (hkeep i n hi (Or.inl hc)))
        exact ⟨ms, by simp only [onlyIf, if_true]; exact m1, m2, m3⟩
    obtain ⟨ms, m1, m2, m3⟩ := hT
    rw [m1, Res.bind_ok]
    have hst' : Stored shape nbins test names new { c with fixed := f, models := ms } :=
      ⟨hst.namesEq, hst.sorted, hmem, hst.notTest, hst.refs,
        (zip_right (shape := shape) (c := { c with fixed := f, models := ms }) hn hnamesN hst.refs.1 m2).2 m3,
        ⟨f2, f3⟩, hoth⟩
    have hS : ∃ c2, onlyIf (hit a (updateFixed ||| updateFree)) setCache
        { c with fixed := f, models := ms } = .ok c2 ∧ Stored shape nbins test names new c2 ∧
        c2.target = c.target ∧ (Recomputed names old new → c2.curTest = false) ∧
        (¬ Recomputed names old new → c2.curTest = c.curTest) := by
      rw [← hX]
      cases hu : hit a (updateFixed ||| updateFree) with
      | false => exact ⟨_, by simp [onlyIf], hst', rfl, by simp, by simp⟩
      | true =>
        obtain ⟨c2, s1, s2, _, s3, s4⟩ := setCache_ok hl hn hst'
        exact ⟨c2, by simpa [onlyIf] using s1, s2, s3, fun _ => s4, by simp⟩
    obtain ⟨c2, s1, s2, s3, s4⟩ := hS
    rw [s1, Res.bind_ok]
    obtain ⟨c3, r1, r2, r3, _, r4, r5⟩ := refactorFromModel_ok hl hn s2
    rw [r1, Res.bind_ok]
    refine ⟨_, rfl, rfl, ?_, ?_, by rw [← s3, ← r4], by
      show (Recomputed names old new → c3.curTest = false) ∧
        (¬ Recomputed names old new → c3.curTest = c.curTest)
      rw [r5]; exact s4⟩
    · exact ⟨r3.namesEq, r3.sorted, r3.mem, r3.notTest, r3.refs, r3.models, r3.fixed, r3.others⟩
    · exact r2

/-! ### Construction and histories -/

theorem construct_ok {shape : Shape κ} {nbins : Nat} (hl : ∀ a b c, (shape a b c).length = nbins)
    (unit : Bool) (test : κ) {m : List (κ × Src κ)} (hm : IsModel m)
    (hv : ∀ p ∈ freeSources test m, p.2.norm.value ≠ 0) :
    ∃ c, construct (counts shape) nbins test unit m = .ok c ∧ c.snap = latchModel m ∧
      Stored shape nbins test ((freeSources test m).map Prod.fst) m c ∧ Current shape nbins test m c ∧
      (∀ s, (test, s) ∈ m → s.norm.value ≠ 0 →
        ∀ b, bin c.target b = bin (shape s.spec s.funcs s.norm.scale) b) ∧
      c.refs = (freeSources test m).map (refOf unit) ∧ c.curTest = false := by
  obtain ⟨e, a1, a2, a3, a4, a5, a6, a7, a8⟩ := extract_ok (cnt := counts shape) (nbins := nbins)
    (fun s => by simp [counts, hl]) test unit m
    ⟨[], [], vresize (List.replicate nbins 0) nbins 0, vresize (List.replicate nbins 0) nbins 0, []⟩
    (by simp) (by simp)
  have hz : ∀ b, bin (vresize (List.replicate nbins (0 : ℝ)) nbins 0) b = 0 := by
    intro b
    simp only [vresize, List.length_replicate, Nat.sub_self, List.replicate_zero, List.append_nil,
      List.take_replicate, min_self, bin, List.getD_eq_getElem?_getD, List.getElem?_replicate]
    split <;> simp
  have hfs : (m.filter (·.1 ∈ (freeSources test m).map Prod.fst)) = freeSources test m := by
    rw [freeSources]
    apply List.filter_congr
    rintro ⟨n, s⟩ hp
    rw [Bool.eq_iff_iff]
    simp only [List.mem_map, List.mem_filter, decide_eq_true_eq]
    constructor
    · rintro ⟨⟨k, t⟩, ⟨h1, h2⟩, h3⟩
      simp only at h3; subst h3
      have e1 := (mem_iff hm).1 h1
      rw [(mem_iff hm).1 hp] at e1
      obtain rfl := Option.some.inj e1
      exact h2
    · intro h; exact ⟨(n, s), ⟨hp, h⟩, rfl⟩
  have hfx : (m.filter fun p => p.1 ≠ test ∧ p.1 ∉ (freeSources test m).map Prod.fst) =
      fixedSources test m := by
    rw [fixedSources]
    apply List.filter_congr
    rintro ⟨n, s⟩ hp
    rw [Bool.eq_iff_iff]
    have h1 : n ∈ (freeSources test m).map Prod.fst ↔ n ≠ test ∧ s.norm.free = true := by
      have : (n, s) ∈ (m.filter (·.1 ∈ (freeSources test m).map Prod.fst)) ↔
          (n, s) ∈ freeSources test m := by rw [hfs]
      simp only [List.mem_filter, decide_eq_true_eq, hp, true_and] at this
      rw [this, freeSources, List.mem_filter]
      simp [hp]
    simp only [decide_eq_true_eq, h1]
    cases s.norm.free <;> simp
  have hst : Stored shape nbins test ((freeSources test m).map Prod.fst) m
      { snap := latchModel m, names := e.names, models := e.models, fixed := e.fixed,
        target := e.target, refs := e.refs, curModels := [], curFixed := List.replicate nbins 0,
        curPars := [], curRefs := [], curTest := false } := by
    refine ⟨by simpa using a2, sorted_filter hm.1 _, ?_, ?_, ⟨by simp [a4], ?_⟩, ?_, ⟨a5, ?_⟩, ?_⟩
    · intro n hn
      obtain ⟨p, hp, rfl⟩ := List.mem_map.1 hn
      exact List.mem_map.2 ⟨p, (List.mem_filter.1 hp).1, rfl⟩
    · intro hn
      obtain ⟨p, hp, hpt⟩ := List.mem_map.1 hn
      have := (List.mem_filter.1 hp).2
      simp [hpt] at this
    · intro r hr
      simp only [a4, List.nil_append] at hr
      obtain ⟨p, hp, rfl⟩ := List.mem_map.1 hr
      simp only [refOf]
      split
      · exact one_ne_zero
      · exact hv p hp
    · rw [hfs]
      simp only [a3, a4, List.nil_append]
      rw [List.zipWith_map_right, List.zipWith_self]
      apply List.map_congr_left
      intro p hp
      have := hv p hp
      simp only [tmplOf, refOf, atRef, counts]
      split
      · rw [List.map_map]
        apply List.map_congr_left
        intro x _
        simp only [Function.comp_apply]
        field_simp
      · rfl
    · intro b
      rw [a7, hz, zero_add, hfx]; rfl
    · intro n s hp h1 h2
      have : (n, s) ∈ fixedSources test m := by
        rw [← hfx, List.mem_filter]; simp only [decide_eq_true_eq]; exact ⟨hp, h1, h2⟩
      have := (List.mem_filter.1 this).2
      simp only [decide_eq_true_eq] at this
      exact this.2
  obtain ⟨c1, b1, b2, b3, b4, b5⟩ := setCache_ok hl hm hst
  obtain ⟨c2, d1, d2, d3, d4, d5, d6⟩ := refactorFromModel_ok hl hm b2
  refine ⟨c2, ?_, by rw [d4, b3], d3, d2, ?_, ?_, by rw [d6, b5]⟩
  rotate_left
  · intro s hs hsv b
    have hft : (m.filter fun p => p.1 = test) = [(test, s)] := by
      apply ext_mem (sorted_filter hm.1 _) (by simp [StdMap.Sorted, StdMap.keys])
      rintro ⟨n, t⟩
      simp only [List.mem_filter, decide_eq_true_eq, List.mem_singleton, Prod.mk.injEq]
      constructor
      · rintro ⟨h1, rfl⟩
        have e1 := (mem_iff hm).1 h1
        rw [(mem_iff hm).1 hs] at e1
        exact ⟨rfl, (Option.some.inj e1).symm⟩
      · rintro ⟨rfl, rfl⟩; exact ⟨hs, rfl⟩
    rw [d5, b4]
    show bin e.target b = _
    rw [a8, hz, hft]
    simp only [List.map_cons, List.map_nil, List.sum_cons, List.sum_nil, counts, bin_map]
    field_simp
    ring
  · rw [(refactorFromModel_kept d1).2.2.2.1, (setCache_kept b1).2.2.2.1]
    simpa using a4
  simp only [construct, buildFromModel, extractModels]
  rw [a1]
  simp only [Res.bind_ok]
  rw [b1]
  exact d1

theorem step_ok {shape : Shape κ} {nbins : Nat} (hl : ∀ a b c, (shape a b c).length = nbins)
    (unit : Bool) {test : κ} {names : List κ} : ∀ (ops : List (Op κ)) (m : List (κ × Src κ))
    (c : Cache κ), IsModel m → Gentles names m ops → c.snap = latchModel m →
    Stored shape nbins test names m c → Current shape nbins test m c →
    ∃ c', ops.foldlM (step (counts shape) nbins test unit) c = .ok c' ∧
      c'.snap = latchModel (lastModel m ops) ∧ Stored shape nbins test names (lastModel m ops) c' ∧
      Current shape nbins test (lastModel m ops) c' ∧ c'.target = c.target ∧ IsModel (lastModel m ops)
  | [], m, c, hm, _, h1, h2, h => ⟨c, rfl, h1, h2, h, rfl, hm⟩
  | .update m' :: ops, m, c, hm, hg, hs, h1, h2 => by
    obtain ⟨c1, a1, a2, a3, a4, a5, -⟩ := update_ok hl unit hm hg.1 hs h1 h2
    obtain ⟨c2, b1, b2, b3, b4, b5, b6⟩ := step_ok hl unit ops m' c1 hg.1.model hg.2 a2 a3 a4
    exact ⟨c2, by rw [List.foldlM_cons, step, a1, Res.bind_ok, b1], b2, b3, b4, by rw [b5, a5], b6⟩
  | .addTest v :: ops, m, c, hm, hg, hs, h1, h2 => by
    have key : (addTest c v).snap = latchModel m ∧ Stored shape nbins test names m (addTest c v) ∧
        Current shape nbins test m (addTest c v) ∧ (addTest c v).target = c.target := by
      cases hc : c.curTest with
      | true => rw [addTest, if_pos hc]; exact ⟨hs, h1, h2, rfl⟩
      | false =>
        rw [addTest, if_neg (by simp [hc])]
        refine ⟨hs, ⟨h1.namesEq, h1.sorted, h1.mem, h1.notTest, h1.refs, h1.models, h1.fixed, h1.others⟩,
          ?_, rfl⟩
        obtain ⟨models, pars, w, i1, i2, i3⟩ := h2
        refine ⟨models, pars, v, i1, ?_, ?_⟩
        · simp [i2, hc]
        · simp [i3, hc]
    obtain ⟨c2, b1, b2, b3, b4, b5, b6⟩ := step_ok hl unit ops m (addTest c v) hm hg key.1 key.2.1 key.2.2.1
    exact ⟨c2, by rw [List.foldlM_cons, step, Res.bind_ok, b1], b2, b3, b4, by rw [b5, key.2.2.2], b6⟩
  | .removeTest :: ops, m, c, hm, hg, hs, h1, h2 => by
    have key : (removeTest c).snap = latchModel m ∧ Stored shape nbins test names m (removeTest c) ∧
        Current shape nbins test m (removeTest c) ∧ (removeTest c).target = c.target := by
      cases hc : c.curTest with
      | false => rw [removeTest, if_neg (by simp [hc])]; exact ⟨hs, h1, h2, rfl⟩
      | true =>
        rw [removeTest, if_pos hc]
        refine ⟨hs, ⟨h1.namesEq, h1.sorted, h1.mem, h1.notTest, h1.refs, h1.models, h1.fixed, h1.others⟩,
          ?_, rfl⟩
        obtain ⟨models, pars, w, i1, i2, i3⟩ := h2
        rw [hc] at i2 i3
        have hlen : models.length = pars.length := by rw [i1.templates, i1.parameters]; simp
        refine ⟨models, pars, w, i1, ?_, ?_⟩
        · simp [i2]
        · simp [i3, i2, hlen]
    obtain ⟨c2, b1, b2, b3, b4, b5, b6⟩ := step_ok hl unit ops m (removeTest c) hm hg key.1 key.2.1 key.2.2.1
    exact ⟨c2, by rw [List.foldlM_cons, step, Res.bind_ok, b1], b2, b3, b4, by rw [b5, key.2.2.2], b6⟩

/-- C57, without what `Gentle` excludes: a cache that is built from a model, and updated
after each of any number of changes that add no free source, free no source without
template, remove no source with a template, keep the types of the latter and the
scales of their normalisations, and are larger than the tolerance, holds the last
model: fixed part, templates, reference values and parameters (followed by the test
source if it is included).  The test source may be added and removed in between. -/
theorem C57_history_partial (shape : Shape κ) (nbins : Nat) (hl : ∀ a b c, (shape a b c).length = nbins)
    (unit : Bool) (test : κ) (m : List (κ × Src κ)) (hm : IsModel m)
    (hv : ∀ p ∈ freeSources test m, p.2.norm.value ≠ 0) (ops : List (Op κ))
    (hg : Gentles ((freeSources test m).map Prod.fst) m ops) :
    ∃ c0 c models pars v, construct (counts shape) nbins test unit m = .ok c0 ∧
      ops.foldlM (step (counts shape) nbins test unit) c0 = .ok c ∧
      InLine shape nbins test (lastModel m ops) c.curFixed pars c.curRefs models ∧
      c.curModels = models ++ (if c.curTest then [c.target] else []) ∧
      c.curPars = pars ++ (if c.curTest then [v] else []) := by
  obtain ⟨c0, a1, a2, a3, a4, -⟩ := construct_ok hl unit test hm hv
  obtain ⟨c, b1, _, _, ⟨models, pars, v, b2, b3, b4⟩, _⟩ := step_ok hl unit ops m c0 hm hg a2 a3 a4
  exact ⟨c0, c, models, pars, v, a1, b1, b2, b3, b4⟩

/-- What being in line with the model means for the scanned counts: in every bin they
are the sum over all sources but the test source. -/
theorem C57_total (shape : Shape κ) (nbins : Nat) (test : κ) (m : List (κ × Src κ))
    (fixed pars refs : List ℝ) (models : List (List ℝ))
    (h : InLine shape nbins test m fixed pars refs models) (b : Nat) :
    scanned fixed pars models b = total shape test m b := by
  have key : ∀ (F : List (κ × Src κ)) (refs : List ℝ), refs.length = F.length → (∀ r ∈ refs, r ≠ 0) →
      (List.zipWith (fun p M => p * bin M b)
        (List.zipWith (fun p r => p.2.norm.value / r) F refs)
        (List.zipWith (fun p r => (shape p.2.spec p.2.funcs p.2.norm.scale).map fun x => r * x) F refs)).sum
        = sumCounts shape F b := by
    intro F
    induction F with
    | nil => intro refs _ _; simp [sumCounts]
    | cons p F ih =>
      intro refs h1 h2
      match refs, h1 with
      | r :: refs, h1 =>
        have hr : r ≠ 0 := h2 r (by simp)
        simp only [List.zipWith_cons_cons, List.sum_cons]
        rw [ih refs (by simpa using h1) (fun x hx => h2 x (by simp [hx])), sumCounts_cons, counts,
          bin_map, bin_map]
        field_simp
  rw [scanned, h.fixedPart.2, h.templates, h.parameters, key _ _ h.refValues.1 h.refValues.2, total]
  simp only [sumCounts, fixedSources, freeSources]
  rw [sum_split _ _ _ _ (by
    rintro ⟨n, s⟩ hp
    simp only [decide_eq_true_eq]
    rintro ⟨⟨_, h1⟩, _, h2⟩
    rw [h1] at h2; cases h2)]
  congr 2
  apply List.filter_congr
  rintro ⟨n, s⟩ hp
  rw [Bool.eq_iff_iff]
  simp only [Bool.or_eq_true, decide_eq_true_eq]
  cases s.norm.free <;> simp

end Verif.Snap
