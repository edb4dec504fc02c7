import Verif.Snap.Props2
import Mathlib.Algebra.Order.Ring.Pow
import Mathlib.Tactic.NormNum
/-
C57: where the update of a scan cache fails.
-/
set_option linter.unusedSectionVars false
set_option linter.unusedSimpArgs false
set_option linter.unusedVariables false
set_option linter.unnecessarySeqFocus false
namespace Verif.Snap
open Spec FitUtils

variable {κ : Type} [LinearOrder κ]

/-- C57 is violated: if the cache has a template at all, then an update after a free
source was added, or a source without template freed, is undefined behaviour: the new
templates are appended to the old ones, the reference values are not, and those of the
last templates are read beyond the end. -/
theorem C57_rebuild_violates (shape : Shape κ) (nbins : Nat) (hl : ∀ a b c, (shape a b c).length = nbins)
    (unit : Bool) (test : κ) (m new : List (κ × Src κ)) (hm : IsModel m) (hn : IsModel new)
    (hv : ∀ p ∈ freeSources test m, p.2.norm.value ≠ 0) (hf : freeSources test m ≠ [])
    (h : (∃ n t, Added m new n t ∧ t.norm.free = true) ∨
      ∃ n s t, n ∉ (freeSources test m).map Prod.fst ∧ Both m new n s t ∧ s.norm.free = false ∧
        t.norm.free = true) :
    ∃ c, construct (counts shape) nbins test unit m = .ok c ∧
      update (counts shape) nbins test unit new c = .ub := by
  obtain ⟨c, a1, a2, a3, a4, _, a6, _⟩ := construct_ok hl unit test hm hv
  refine ⟨c, a1, ?_⟩
  obtain ⟨a, ch, e, hreb⟩ := C57_rebuild m new hm hn ((freeSources test m).map Prod.fst)
  have hr := hreb.2 h
  rw [update, a2, a3.namesEq, e, Res.bind_ok]
  show updateWithAction _ _ _ _ _ _ a ch = _
  rw [updateWithAction, if_pos hr, buildFromModel]
  have hvr : ∀ l : List ℝ, l.length = nbins → vresize l nbins 0 = l := by
    intro l hl'
    simp [vresize, hl']
  obtain ⟨x, b1, b2, b3, b4, b5, b6, _, _⟩ := extract_ok (cnt := counts shape) (nbins := nbins)
    (fun s => by simp [counts, hl]) test unit new
    ⟨c.names, c.models, vresize c.fixed nbins 0, vresize c.target nbins 0, []⟩ (by simp) (by simp)
  rw [extractModels]
  simp only []
  rw [b1, Res.bind_ok, setCache, refactorModel]
  have hlen : (m.filter (·.1 ∈ (freeSources test m).map Prod.fst)).length = c.refs.length := by
    have := congrArg List.length (names_eq hm.1 a3.sorted a3.mem)
    rw [List.length_map, List.length_map] at this
    rw [a3.refs.1, List.length_map, this]
  have hml : c.models.length = (freeSources test m).length := by
    rw [a3.models]; simp [hlen]; simpa using a3.refs.1
  have hpos : 0 < (freeSources test m).length := List.length_pos_iff.2 hf
  have hmlen : ∀ t ∈ x.models, t.length = nbins := by
    intro t ht
    rw [b3] at ht
    rcases List.mem_append.1 ht with ht | ht
    · change t ∈ c.models at ht
      rw [a3.models] at ht
      obtain ⟨i, hi, rfl⟩ := List.mem_iff_getElem.1 ht
      simp [atRef, hl]
    · obtain ⟨p, _, rfl⟩ := List.mem_map.1 ht
      simp only [tmplOf]
      split <;> simp [counts, hl]
  obtain ⟨fixed', q1, -, -⟩ := refactorLoop_ok (List.replicate x.models.length 1) x.models
    (List.replicate x.models.length true) 0 [] x.fixed [] (List.replicate x.models.length 1)
    (by simp) (by simp) (by simp) (by intro t ht; rw [hmlen t ht, b5]) (by simp)
  rw [refactorModels, if_neg (by simp)]
  simp only [] at q1 ⊢
  rw [q1]
  simp only [Res.bind_ok, Bool.false_eq_true, if_false]
  rw [curRefs_ub _ _ _ (Nat.zero_le _) (by
    rw [b4, b3]
    show ([] ++ List.map _ _).length < _
    simp only [List.nil_append, List.length_append, List.length_map]
    show _ < 0 + (c.models.length + _)
    omega), Res.bind_ub]

/-- C57 is violated: the template of the test source is that of the first model,
whatever has become of the test source since. -/
theorem C57_target_violates (shape : Shape κ) (nbins : Nat) (hl : ∀ a b c, (shape a b c).length = nbins)
    (unit : Bool) (test : κ) (m : List (κ × Src κ)) (hm : IsModel m)
    (hv : ∀ p ∈ freeSources test m, p.2.norm.value ≠ 0) (s : Src κ) (hs : (test, s) ∈ m)
    (hsv : s.norm.value ≠ 0) (ops : List (Op κ))
    (hg : Gentles ((freeSources test m).map Prod.fst) m ops) :
    ∃ c0 c, construct (counts shape) nbins test unit m = .ok c0 ∧
      ops.foldlM (step (counts shape) nbins test unit) c0 = .ok c ∧
      ∀ b, bin c.target b = bin (shape s.spec s.funcs s.norm.scale) b := by
  obtain ⟨c0, a1, a2, a3, a4, a5, -⟩ := construct_ok hl unit test hm hv
  obtain ⟨c, b1, _, _, _, b5, _⟩ := step_ok hl unit ops m c0 hm hg a2 a3 a4
  exact ⟨c0, c, a1, b1, fun b => by rw [b5, a5 s hs hsv]⟩

/-- C57 is violated: an update drops the test source from the scan if the fixed part or
a template was computed again, and keeps it otherwise. -/
theorem C57_test_violates (shape : Shape κ) (nbins : Nat) (hl : ∀ a b c, (shape a b c).length = nbins)
    (unit : Bool) (test : κ) (m new : List (κ × Src κ)) (hm : IsModel m)
    (hv : ∀ p ∈ freeSources test m, p.2.norm.value ≠ 0) (ops : List (Op κ)) (v : ℝ)
    (hg : Gentles ((freeSources test m).map Prod.fst) m (ops ++ [.addTest v]))
    (hn : Gentle ((freeSources test m).map Prod.fst) (lastModel m (ops ++ [.addTest v])) new) :
    ∃ c0 c c', construct (counts shape) nbins test unit m = .ok c0 ∧
      (ops ++ [Op.addTest v]).foldlM (step (counts shape) nbins test unit) c0 = .ok c ∧
      c.curTest = true ∧ update (counts shape) nbins test unit new c = .ok c' ∧
      (c'.curTest = false ↔
        Recomputed ((freeSources test m).map Prod.fst) (lastModel m (ops ++ [.addTest v])) new) := by
  obtain ⟨c0, a1, a2, a3, a4, a5⟩ := construct_ok hl unit test hm hv
  obtain ⟨c, b1, b2, b3, b4, b5, b6⟩ := step_ok hl unit (ops ++ [.addTest v]) m c0 hm hg a2 a3 a4
  obtain ⟨c', d1, _, _, _, _, d2, d3⟩ := update_ok hl unit b6 hn b2 b3 b4
  have hct : c.curTest = true := by
    rw [List.foldlM_append] at b1
    obtain ⟨c1, _, h2⟩ := Res.bind_eq_ok.1 b1
    simp only [List.foldlM_cons, step, Res.bind_ok, List.foldlM_nil, Res.pure_eq, Res.ok.injEq] at h2
    rw [← h2, addTest]
    split
    · assumption
    · rfl
  refine ⟨c0, c, c', a1, b1, hct, d1, ⟨fun h => ?_, d2⟩⟩
  by_contra hc
  rw [d3 hc, hct] at h; cases h

/-! ### Changes below the tolerance -/

/-- The model with the normalisations that another one gives the sources with templates. -/
def renorm (names : List κ) (new m : List (κ × Src κ)) : List (κ × Src κ) :=
  m.map fun p => (p.1, if p.1 ∈ names then
    match StdMap.find new p.1 with
    | some t => { p.2 with norm := { p.2.norm with value := t.norm.value, free := t.norm.free } }
    | none => p.2
    else p.2)

theorem renorm_keys (names : List κ) (new m : List (κ × Src κ)) :
    (renorm names new m).map Prod.fst = m.map Prod.fst := by
  simp [renorm, Function.comp_def]

theorem renorm_model {names : List κ} {new m : List (κ × Src κ)} (hm : IsModel m) :
    IsModel (renorm names new m) := by
  refine ⟨by rw [renorm_keys]; exact hm.1, ?_⟩
  intro n s h
  obtain ⟨⟨k, t⟩, hp, he⟩ := List.mem_map.1 h
  simp only [Prod.mk.injEq] at he
  obtain ⟨rfl, rfl⟩ := he
  have := hm.2 k t hp
  split
  · cases StdMap.find new k <;> exact this
  · exact this

theorem renorm_find {names : List κ} {new m : List (κ × Src κ)} (hm : IsModel m) {n : κ} {s t : Src κ}
    (hin : n ∈ names) (hs : StdMap.find m n = some s) (ht : StdMap.find new n = some t) :
    StdMap.find (renorm names new m) n =
      some { s with norm := { s.norm with value := t.norm.value, free := t.norm.free } } := by
  apply (mem_iff (renorm_model hm)).1
  refine List.mem_map.2 ⟨(n, s), (mem_iff hm).2 hs, ?_⟩
  simp only [if_pos hin, ht]

theorem renorm_filter (names : List κ) (new m : List (κ × Src κ)) (q : κ → Bool) :
    (renorm names new m).filter (fun p => q p.1) = renorm names new (m.filter fun p => q p.1) := by
  simp [renorm, List.filter_map, Function.comp_def]

theorem renorm_atRef (shape : Shape κ) (names : List κ) (new m : List (κ × Src κ)) (refs : List ℝ) :
    List.zipWith (atRef shape) (renorm names new m) refs = List.zipWith (atRef shape) m refs := by
  rw [renorm, List.zipWith_map_left]
  congr 1
  funext p r
  simp only [atRef]
  split
  · cases StdMap.find new p.1 <;> rfl
  · rfl

theorem renorm_others {names : List κ} {new m : List (κ × Src κ)} (h : ∀ p ∈ m, p.1 ∉ names) :
    renorm names new m = m := by
  rw [renorm]
  conv => rhs; rw [← List.map_id m]
  apply List.map_congr_left
  intro p hp
  rw [if_neg (h p hp)]; rfl

theorem stored_renorm {shape : Shape κ} {nbins : Nat} {test : κ} {names : List κ}
    {new m : List (κ × Src κ)} {c : Cache κ} (h : Stored shape nbins test names m c) :
    Stored shape nbins test names (renorm names new m) c := by
  refine ⟨h.namesEq, h.sorted, by rw [renorm_keys]; exact h.mem, h.notTest, h.refs, ?_, ⟨h.fixed.1, ?_⟩, ?_⟩
  · rw [renorm_filter names new m (· ∈ names), renorm_atRef]; exact h.models
  · intro b
    rw [h.fixed.2, renorm_filter names new m (fun k => k ≠ test ∧ k ∉ names), renorm_others]
    intro p hp
    have := (List.mem_filter.1 hp).2
    simp only [decide_eq_true_eq] at this
    exact this.2
  · intro n s hp h1 h2
    obtain ⟨⟨k, t⟩, hp', he⟩ := List.mem_map.1 hp
    simp only [Prod.mk.injEq] at he
    obtain ⟨rfl, rfl⟩ := he
    rw [if_neg h2]
    exact h.others k t hp' h1 h2

theorem statusAndScales_congr (m m' : List (κ × Src κ)) (refs : List ℝ) : ∀ (ns : List κ) (i : Nat),
    (∀ n ∈ ns, ∃ s t, StdMap.find m n = some s ∧ StdMap.find m' n = some t ∧
      s.norm.value = t.norm.value ∧ s.norm.free = t.norm.free) →
    statusAndScales m refs i ns = statusAndScales m' refs i ns
  | [], i, _ => rfl
  | n :: ns, i, h => by
    obtain ⟨s, t, h1, h2, h3, h4⟩ := h n (by simp)
    simp only [statusAndScales, h1, h2, h3, h4]
    rw [statusAndScales_congr m m' refs ns (i + 1) fun k hk => h k (List.mem_cons_of_mem _ hk)]

/-- One update after a lazy change: only the normalisations follow. -/
theorem lazy_ok {shape : Shape κ} {nbins : Nat} (hl : ∀ a b c, (shape a b c).length = nbins)
    (unit : Bool) {test : κ} {names : List κ} {m0 old new : List (κ × Src κ)} (h0 : IsModel m0)
    (ho : IsModel old) (hk : old.map Prod.fst = m0.map Prod.fst)
    (hz : Lazy names old new) {c : Cache κ} (hs : c.snap = latchModel old)
    (hst : Stored shape nbins test names m0 c) :
    ∃ c', update (counts shape) nbins test unit new c = .ok c' ∧ c'.snap = latchModel new ∧
      Stored shape nbins test names m0 c' ∧ Current shape nbins test (renorm names new m0) c' ∧
      c'.curTest = c.curTest := by
  have hn := hz.model
  have hnoadd : ∀ n t, ¬ Added old new n t := by
    rintro n t ⟨h1, h2⟩
    rw [hz.keys] at h2; exact h2 (key_mem h1)
  have hnorem : ∀ n, ¬ Removed old new n := by
    rintro n ⟨h1, h2⟩
    rw [hz.keys] at h1; exact h2 h1
  obtain ⟨a, ch, e, hreb⟩ := C57_rebuild old new ho hn names
  have hr : hit a rebuild = false := by
    rw [← Bool.not_eq_true, hreb]
    rintro (⟨n, t, h1, h2⟩ | ⟨n, s, t, h1, h2, h3, h4⟩)
    · exact hnoadd n t h1
    · have := (hz.others n s t h1 h2).1.2.1
      rw [h3, h4] at this; cases this
  obtain ⟨A1, A2, A3, A4, A5⟩ := C57_action_partial old new ho hn names
    (fun n s t h1 h2 => ⟨(hz.templates n s t h1 h2).1, (hz.templates n s t h1 h2).2.1⟩) a ch e hr
  have hf1 : hit a updateFixed = false := by
    rw [← Bool.not_eq_true, A1]
    rintro (⟨n, t, h⟩ | ⟨n, h1, h2 | ⟨s, t, h2, h3⟩⟩)
    · exact hnoadd n t h
    · exact hnorem n h2
    · exact h3 (hz.others n s t h1 h2)
  have hf2 : hit a updateFree = false := by
    rw [← Bool.not_eq_true, A2]
    rintro ⟨n, s, t, h1, h2, h3⟩
    exact h3 (hz.templates n s t h1 h2).2.2
  have hf3 : hit a refactor = true := by
    rw [A3]
    obtain ⟨n, s, t, h1, h2, h3⟩ := hz.moved
    exact Or.inr (Or.inr ⟨n, s, t, h1, h2, Or.inl h3⟩)
  have ha0 : a ≠ 0 := by rintro rfl; rw [hit_zero] at hf3; cases hf3
  have hx : hit a (refactor ||| remakePrior) = true := by rw [hit_or_mask, hf3]; rfl
  have hx2 : hit a (updateFixed ||| updateFree) = false := by rw [hit_or_mask, hf1, hf2]; rfl
  obtain ⟨c', r1, r2, r3, _, _, r6⟩ := refactorFromModel_ok hl (renorm_model (names := names) (new := new) h0)
    (stored_renorm (new := new) hst)
  have hcong : refactorFromModel new c = refactorFromModel (renorm names new m0) c := by
    rw [refactorFromModel, refactorFromModel, hst.namesEq,
      statusAndScales_congr new (renorm names new m0) c.refs names 0]
    intro n hin
    have h1 := hst.mem n hin
    have h2 : n ∈ new.map Prod.fst := by rw [← hz.keys, hk]; exact h1
    obtain ⟨s, hs1⟩ := StdMap.mem_keys_iff.1 h1
    obtain ⟨t, ht1⟩ := StdMap.mem_keys_iff.1 h2
    exact ⟨t, _, ht1, renorm_find h0 hin hs1 ht1, rfl, rfl⟩
  obtain ⟨k1, k2, k3, k4, k5, k6⟩ := refactorFromModel_kept r1
  refine ⟨{ c' with snap := latchModel new }, ?_, rfl, ?_, r2, r6⟩
  · rw [update, hs, hst.namesEq, e, Res.bind_ok]
    show updateWithAction _ _ _ _ _ _ a ch = _
    rw [updateWithAction_eq _ _ _ _ _ _ _ _ hr ha0 hx, hf1, hf2, hx2]
    simp only [onlyIf, Bool.false_eq_true, if_false, Res.bind_ok]
    rw [hcong, r1, Res.bind_ok]
  · exact ⟨k1.trans hst.namesEq, hst.sorted, hst.mem, hst.notTest, by
      show c'.refs.length = _ ∧ _
      rw [k4]; exact hst.refs, by
      show c'.models = List.zipWith _ _ c'.refs
      rw [k2, k4]; exact hst.models, by
      show c'.fixed.length = _ ∧ ∀ b, bin c'.fixed b = _
      rw [k3]; exact hst.fixed, hst.others⟩

theorem lazies_ok {shape : Shape κ} {nbins : Nat} (hl : ∀ a b c, (shape a b c).length = nbins)
    (unit : Bool) {test : κ} {names : List κ} {m0 : List (κ × Src κ)} (h0 : IsModel m0) :
    ∀ (ms : List (List (κ × Src κ))) (m : List (κ × Src κ)) (c : Cache κ), IsModel m →
    m.map Prod.fst = m0.map Prod.fst → Lazies names m ms → c.snap = latchModel m →
    Stored shape nbins test names m0 c → Current shape nbins test (renorm names m m0) c →
    ∃ c', ms.foldlM (fun c m => update (counts shape) nbins test unit m c) c = .ok c' ∧
      Current shape nbins test (renorm names (ms.getLastD m) m0) c' ∧ c'.curTest = c.curTest
  | [], m, c, _, _, _, _, _, h => ⟨c, rfl, h, rfl⟩
  | m' :: ms, m, c, hm, hk, hz, hs, h1, h2 => by
    obtain ⟨c1, a1, a2, a3, a4, a5⟩ := lazy_ok hl unit h0 hm hk hz.1 hs h1
    obtain ⟨c2, b1, b2, b3⟩ := lazies_ok hl unit h0 ms m' c1 hz.1.model (hz.1.keys ▸ hk) hz.2 a2 a3 a4
    exact ⟨c2, by rw [List.foldlM_cons, a1, Res.bind_ok, b1], by rw [List.getLastD_cons]; exact b2, by rw [b3, a5]⟩

theorem renorm_self {names : List κ} {m : List (κ × Src κ)} (hm : IsModel m) : renorm names m m = m := by
  rw [renorm]
  conv => rhs; rw [← List.map_id m]
  apply List.map_congr_left
  rintro ⟨n, s⟩ hp
  simp only [(mem_iff hm).1 hp, ite_self, id]

/-- What is scanned after any number of such changes: the first model with the
normalisations of the last one. -/
theorem lazy_history {shape : Shape κ} {nbins : Nat} (hl : ∀ a b c, (shape a b c).length = nbins)
    (unit : Bool) (test : κ) {m : List (κ × Src κ)} (hm : IsModel m)
    (hv : ∀ p ∈ freeSources test m, p.2.norm.value ≠ 0) (ms : List (List (κ × Src κ)))
    (hz : Lazies ((freeSources test m).map Prod.fst) m ms) :
    ∃ c0 c, construct (counts shape) nbins test unit m = .ok c0 ∧
      ms.foldlM (fun c m => update (counts shape) nbins test unit m c) c0 = .ok c ∧
      Current shape nbins test (renorm ((freeSources test m).map Prod.fst) (ms.getLastD m) m) c ∧
      c.curTest = false := by
  obtain ⟨c0, a1, a2, a3, a4, -, -, a5⟩ := construct_ok hl unit test hm hv
  obtain ⟨c, b1, b2, b3⟩ := lazies_ok hl unit hm ms m c0 hm rfl hz a2 a3 (by rw [renorm_self hm]; exact a4)
  exact ⟨c0, c, a1, b1, b2, by rw [b3, a5]⟩

/-! ### Examples of failing updates -/

/-- A source of value `v` and scale `sc`, with one spectral parameter. -/
private def nsrc (v sc i : ℝ) (free : Bool) : Src ℕ :=
  ⟨⟨v, sc, free, none⟩, ⟨0, [(3, ⟨i, 1, true, none⟩)]⟩, []⟩

/-- One bin, with counts proportional to the scale of the normalisation. -/
def shape1 : Shape ℕ := fun _ _ sc => [sc]

private theorem nsrc_distinct (v sc i : ℝ) (f : Bool) : Distinct (nsrc v sc i f) :=
  ⟨by simp [nsrc], by simp [nsrc, spatial]⟩

private theorem model2 (s t : Src ℕ) (hs : Distinct s) (ht : Distinct t) : IsModel [(1, s), (2, t)] := by
  refine ⟨by simp, ?_⟩
  intro n u h
  simp only [List.mem_cons, Prod.mk.injEq, List.not_mem_nil, or_false] at h
  rcases h with ⟨_, rfl⟩ | ⟨_, rfl⟩ <;> assumption

private theorem both2 {s t s' t' : Src ℕ} {n : ℕ} {u w : Src ℕ}
    (h : Both [(1, s), (2, t)] [(1, s'), (2, t')] n u w) :
    (n = 1 ∧ u = s ∧ w = s') ∨ (n = 2 ∧ u = t ∧ w = t') := by
  simp only [Both, List.mem_cons, Prod.mk.injEq, List.not_mem_nil, or_false] at h
  rcases h with ⟨⟨rfl, rfl⟩ | ⟨rfl, rfl⟩, ⟨h1, rfl⟩ | ⟨h1, rfl⟩⟩
  · exact Or.inl ⟨rfl, rfl, rfl⟩
  · omega
  · omega
  · exact Or.inr ⟨rfl, rfl, rfl⟩

private theorem close_refl (a : ℝ) : Close a a := by simp only [Close, sub_self, abs_zero]; positivity

private theorem nsrc_pars (v w sc sd i : ℝ) (f g : Bool) :
    SameSpecType (nsrc v sc i f) (nsrc w sd i g) ∧ SameSpatType (nsrc v sc i f) (nsrc w sd i g) ∧
    SamePars (nsrc v sc i f).spec.pars (nsrc w sd i g).spec.pars ∧
    SamePars (spatial (nsrc v sc i f)) (spatial (nsrc w sd i g)) :=
  ⟨⟨rfl, fun _ => Iff.rfl⟩, ⟨rfl, fun _ => Iff.rfl⟩, (same_refl (nsrc v sc i f)).2.2.1,
    fun _ => by simp [spatial, nsrc, SameOpt]⟩

/-- The models of a drift: the normalisation of the first source is doubled at every
step, that of the second, fixed one grows by a hundred-thousandth. -/
private noncomputable def drift (k : ℕ) : List (ℕ × Src ℕ) :=
  [(1, nsrc (2 ^ k) 1 0 true), (2, nsrc ((1 + 1e-5) ^ k) 1 0 false)]

private theorem drift_lazy (k : ℕ) : Lazy [1] (drift k) (drift (k + 1)) := by
  refine ⟨model2 _ _ (nsrc_distinct _ _ _ _) (nsrc_distinct _ _ _ _), rfl, ?_, ?_, ?_⟩
  · intro n s t hn hb
    rcases both2 hb with ⟨rfl, rfl, rfl⟩ | ⟨rfl, rfl, rfl⟩
    · simp at hn
    · obtain ⟨h1, h2, h3, h4⟩ := nsrc_pars ((1 + 1e-5) ^ k) ((1 + 1e-5) ^ (k + 1)) 1 1 0 false false
      refine ⟨⟨?_, rfl, trivial⟩, h1.1, h3, h2.1, h4⟩
      simp only [nsrc, mul_one, Close]
      have hp : (0 : ℝ) < (1 + 1e-5) ^ k := by positivity
      rw [pow_succ]
      generalize (1 + 1e-5 : ℝ) ^ k = p at hp
      have e1 : |p - p * (1 + 1e-5)| = p * 1e-5 := by
        rw [show p - p * (1 + 1e-5) = -(p * 1e-5) by ring, abs_neg, abs_of_pos (by positivity)]
      rw [e1, abs_of_pos hp, abs_of_pos (show 0 < p * (1 + 1e-5) by positivity)]
      have : (0 : ℝ) < p * (1 + 1e-5) := by positivity
      have : (0 : ℝ) < 1e-5 := by norm_num
      nlinarith
  · intro n s t hn hb
    rcases both2 hb with ⟨rfl, rfl, rfl⟩ | ⟨rfl, rfl, rfl⟩
    · exact nsrc_pars _ _ _ _ _ _ _
    · simp at hn
  · refine ⟨1, nsrc (2 ^ k) 1 0 true, nsrc (2 ^ (k + 1)) 1 0 true, by simp,
      ⟨by simp [drift], by simp [drift]⟩, ?_⟩
    simp only [nsrc, mul_one, Close]
    have hp : (0 : ℝ) < 2 ^ k := by positivity
    rw [pow_succ]
    generalize (2 : ℝ) ^ k = p at hp
    rw [show p - p * 2 = -p by ring, abs_neg, abs_of_pos hp, abs_of_pos (show 0 < p * 2 by positivity)]
    intro h
    norm_num at h
    linarith

private theorem drift_lazies : ∀ (N k : ℕ), Lazies [1] (drift k) ((List.range' (k + 1) N).map drift) ∧
    ((List.range' (k + 1) N).map drift).getLastD (drift k) = drift (k + N)
  | 0, k => ⟨trivial, rfl⟩
  | N + 1, k => by
    obtain ⟨h1, h2⟩ := drift_lazies N (k + 1)
    rw [List.range'_succ, List.map_cons]
    refine ⟨⟨drift_lazy k, h1⟩, ?_⟩
    rw [List.getLastD_cons, h2]
    congr 1; omega

/-- C57 is violated: changes below the tolerance add up.  A fixed source that changes by
less than the tolerance between updates is never updated as long as another source
gives reason to take a new snapshot each time; the error of the scanned counts grows
without bound. -/
theorem C57_drift_violates (X : ℝ) :
    ∃ (m : List (ℕ × Src ℕ)) (ms : List (List (ℕ × Src ℕ))) (c0 c : Cache ℕ),
      IsModel m ∧ construct (counts shape1) 1 0 false m = .ok c0 ∧
      ms.foldlM (fun c m => update (counts shape1) 1 0 false m c) c0 = .ok c ∧
      X < |scanned c.curFixed c.curPars c.curModels 0 - total shape1 0 (ms.getLastD m) 0| := by
  obtain ⟨N, hN⟩ := exists_nat_gt (X * 1e5)
  have hm : IsModel (drift 0) := model2 _ _ (nsrc_distinct _ _ _ _) (nsrc_distinct _ _ _ _)
  have hfree : (freeSources 0 (drift 0)).map Prod.fst = [1] := by simp [freeSources, drift, nsrc]
  obtain ⟨h1, h2⟩ := drift_lazies N 0
  obtain ⟨c0, c, a1, a2, ⟨models, pars, v, a3, a4, a5⟩, a6⟩ := lazy_history (shape := shape1) (nbins := 1)
    (by intro _ _ _; rfl) false 0 hm (by simp [freeSources, drift, nsrc])
    ((List.range' (0 + 1) N).map drift) (by rw [hfree]; exact h1)
  refine ⟨drift 0, (List.range' (0 + 1) N).map drift, c0, c, hm, a1, a2, ?_⟩
  rw [a6] at a4 a5
  simp only [Bool.false_eq_true, if_false, List.append_nil] at a4 a5
  rw [a4, a5, C57_total shape1 1 0 _ _ _ _ _ a3, hfree, h2, Nat.zero_add]
  have e1 : total shape1 0 (renorm [1] (drift N) (drift 0)) 0 = 2 ^ N + 1 := by
    simp [total, renorm, drift, nsrc, StdMap.find, sumCounts, counts, shape1, bin]
  have e2 : total shape1 0 (drift N) 0 = 2 ^ N + (1 + 1e-5) ^ N := by
    simp [total, drift, nsrc, sumCounts, counts, shape1, bin]
  rw [e1, e2]
  have hb : 1 + (N : ℝ) * 1e-5 ≤ (1 + 1e-5) ^ N := one_add_mul_le_pow (by norm_num) N
  refine lt_of_lt_of_le ?_ (neg_le_abs _)
  norm_num at hN hb ⊢
  linarith

/-- C57 is violated: the scale of a normalisation is not looked at by the update (only
the product of value and scale is compared, and only the value is used): after it has
been doubled, the scanned counts are half of those of the model. -/
theorem C57_scale_violates :
    ∃ (m m' : List (ℕ × Src ℕ)) (c0 c : Cache ℕ), IsModel m ∧ IsModel m' ∧
      construct (counts shape1) 1 0 false m = .ok c0 ∧
      update (counts shape1) 1 0 false m' c0 = .ok c ∧
      scanned c.curFixed c.curPars c.curModels 0 = 1 ∧ total shape1 0 m' 0 = 2 := by
  have hm : IsModel [(1, nsrc 1 1 0 true)] :=
    ⟨by simp, by
      intro n s h
      simp only [List.mem_singleton, Prod.mk.injEq] at h
      obtain ⟨_, rfl⟩ := h; exact nsrc_distinct _ _ _ _⟩
  have hm' : IsModel [(1, nsrc 1 2 0 true)] :=
    ⟨by simp, by
      intro n s h
      simp only [List.mem_singleton, Prod.mk.injEq] at h
      obtain ⟨_, rfl⟩ := h; exact nsrc_distinct _ _ _ _⟩
  have hfree : (freeSources 0 [(1, nsrc 1 1 0 true)]).map Prod.fst = [1] := by simp [freeSources, nsrc]
  have hz : Lazy [1] [(1, nsrc 1 1 0 true)] [(1, nsrc 1 2 0 true)] := by
    have hb : ∀ n s t, Both [(1, nsrc 1 1 0 true)] [(1, nsrc 1 2 0 true)] n s t →
        n = 1 ∧ s = nsrc 1 1 0 true ∧ t = nsrc 1 2 0 true := by
      rintro n s t ⟨h1, h2⟩
      simp only [List.mem_singleton, Prod.mk.injEq] at h1 h2
      exact ⟨h1.1, h1.2, h2.2⟩
    refine ⟨hm', rfl, ?_, ?_, ?_⟩
    · intro n s t hn h
      obtain ⟨rfl, _, _⟩ := hb n s t h
      simp at hn
    · intro n s t hn h
      obtain ⟨rfl, rfl, rfl⟩ := hb n s t h
      exact nsrc_pars _ _ _ _ _ _ _
    · refine ⟨1, nsrc 1 1 0 true, nsrc 1 2 0 true, by simp, ⟨by simp, by simp⟩, ?_⟩
      norm_num [Close, nsrc]
  obtain ⟨c0, c, a1, a2, ⟨models, pars, v, a3, a4, a5⟩, a6⟩ := lazy_history (shape := shape1) (nbins := 1)
    (by intro _ _ _; rfl) false 0 hm (by simp [freeSources, nsrc])
    [[(1, nsrc 1 2 0 true)]] (by rw [hfree]; exact ⟨hz, trivial⟩)
  refine ⟨_, _, c0, c, hm, hm', a1, by
    rw [List.foldlM_cons] at a2
    obtain ⟨x, h1, h2⟩ := Res.bind_eq_ok.1 a2
    rw [h1, ← h2]; rfl, ?_, ?_⟩
  · rw [a6] at a4 a5
    simp only [Bool.false_eq_true, if_false, List.append_nil] at a4 a5
    rw [a4, a5, C57_total shape1 1 0 _ _ _ _ _ a3, hfree]
    simp [total, renorm, nsrc, StdMap.find, sumCounts, counts, shape1, bin]
  · simp [total, nsrc, sumCounts, counts, shape1, bin]

private theorem model1 (s : Src ℕ) (hs : Distinct s) : IsModel [(1, s)] :=
  ⟨by simp, by
    intro n u h
    simp only [List.mem_singleton, Prod.mk.injEq] at h
    obtain ⟨_, rfl⟩ := h; exact hs⟩

private theorem not_close {a b : ℝ} (h : (|a| + |b|) * 1e-5 < |a - b|) : ¬ Close a b := not_le.2 h

private theorem index_ne {v w sc sd i j : ℝ} {f g : Bool} (h : ¬ Close i j) :
    ¬ SamePars (nsrc v sc i f).spec.pars (nsrc w sd j g).spec.pars := by
  intro hc
  have := (hc 3)
  simp only [nsrc, List.lookup, beq_self_eq_true, SameOpt] at this
  exact h (by simpa using this.1)

/-- C57 is violated: a template made anew for a source whose normalisation is negative is
not brought to the reference value; its counts then enter with the square of the
normalisation: here a source of counts -1 is scanned as +1. -/
theorem C57_negative_violates :
    ∃ (m m' : List (ℕ × Src ℕ)) (c0 c : Cache ℕ), IsModel m ∧ IsModel m' ∧
      construct (counts shape1) 1 0 false m = .ok c0 ∧
      update (counts shape1) 1 0 false m' c0 = .ok c ∧
      scanned c.curFixed c.curPars c.curModels 0 = 1 ∧ total shape1 0 m' 0 = -1 := by
  have hm : IsModel [(1, nsrc 1 1 0 true)] := model1 _ (nsrc_distinct _ _ _ _)
  have hm' : IsModel [(1, nsrc (-1) 1 1 true)] := model1 _ (nsrc_distinct _ _ _ _)
  have hfree : (freeSources 0 [(1, nsrc 1 1 0 true)]).map Prod.fst = [1] := by simp [freeSources, nsrc]
  obtain ⟨c0, a1, a2, a3, _, _, a6, a7⟩ := construct_ok (shape := shape1) (nbins := 1)
    (by intro _ _ _; rfl) false 0 hm (by simp [freeSources, nsrc])
  rw [hfree] at a3
  have hb : ∀ n s t, Both [(1, nsrc 1 1 0 true)] [(1, nsrc (-1) 1 1 true)] n s t →
      n = 1 ∧ s = nsrc 1 1 0 true ∧ t = nsrc (-1) 1 1 true := by
    rintro n s t ⟨h1, h2⟩
    simp only [List.mem_singleton, Prod.mk.injEq] at h1 h2
    exact ⟨h1.1, h1.2, h2.2⟩
  have hbb : Both [(1, nsrc 1 1 0 true)] [(1, nsrc (-1) 1 1 true)] 1 (nsrc 1 1 0 true)
      (nsrc (-1) 1 1 true) := ⟨by simp, by simp⟩
  have hnc : ¬ Close (0 : ℝ) 1 := not_close (by norm_num)
  obtain ⟨a, ch, e, hreb⟩ := C57_rebuild _ _ hm hm' [1]
  have hr : hit a rebuild = false := by
    rw [← Bool.not_eq_true, hreb]
    rintro (⟨n, t, ⟨h1, h2⟩, _⟩ | ⟨n, s, t, h1, h2, _, _⟩)
    · simp only [List.mem_singleton, Prod.mk.injEq] at h1
      simp [h1.1] at h2
    · simp [(hb n s t h2).1] at h1
  obtain ⟨A1, A2, A3, A4, A5⟩ := C57_action_partial _ _ hm hm' [1] (by
    intro n s t h1 h2
    obtain ⟨rfl, rfl, rfl⟩ := hb n s t h2
    exact ⟨⟨rfl, fun _ => Iff.rfl⟩, ⟨rfl, fun _ => Iff.rfl⟩⟩) a ch e hr
  have hf1 : hit a updateFixed = false := by
    rw [← Bool.not_eq_true, A1]
    rintro (⟨n, t, h1, h2⟩ | ⟨n, h1, ⟨h2, _⟩ | ⟨s, t, h2, h3⟩⟩)
    · simp only [List.mem_singleton, Prod.mk.injEq] at h1
      simp [h1.1] at h2
    · simp at h1 h2; exact h1 h2
    · simp [(hb n s t h2).1] at h1
  have hf2 : hit a updateFree = true :=
    A2.2 ⟨1, _, _, by simp, hbb, fun h => index_ne hnc h.1⟩
  have hf3 : hit a refactor = true := A3.2 (Or.inr (Or.inl hf2))
  have ha0 : a ≠ 0 := by rintro rfl; rw [hit_zero] at hf3; cases hf3
  have hx : hit a (refactor ||| remakePrior) = true := by rw [hit_or_mask, hf3]; rfl
  have hx2 : hit a (updateFixed ||| updateFree) = true := by rw [hit_or_mask, hf1, hf2]; rfl
  have hch : ch = [1] := by
    have h1 : (1 : ℕ) ∈ ch := (A5 1).2 ⟨by simp, Or.inr ⟨_, _, hbb, fun h => index_ne hnc h.2.2.1⟩⟩
    rw [findAction, compareLatched_ok, Res.bind_ok] at e
    simp only [Res.ok.injEq, Prod.mk.injEq, List.map_cons, List.map_nil, List.filter_cons,
      List.filter_nil] at e
    rw [← e.2] at h1 ⊢
    split at h1
    · rename_i h; rw [if_pos h]
    · simp at h1
  have href : c0.refs = [1] := by rw [a6]; simp [freeSources, nsrc, refOf]
  have hmod : c0.models = [[1]] := by
    rw [a3.models, href]; simp [atRef, nsrc, shape1]
  have hfix : c0.fixed = [0] := by
    have h1 := a3.fixed.1
    have h2 := a3.fixed.2 0
    obtain ⟨x, hx⟩ := List.length_eq_one_iff.1 h1
    rw [hx] at h2 ⊢
    simp [bin, sumCounts, List.filter_cons] at h2
    rw [h2]
  have hcnt : counts shape1 (nsrc (-1) 1 1 true) = [-1] := by simp [counts, shape1, nsrc]
  have hut : updateTemplate (counts shape1) [(1, nsrc (-1) 1 1 true)] c0 1 =
      .ok { c0 with models := [[-1]] } := by
    simp only [updateTemplate, a3.namesEq, href, hmod, templateIndex, StdMap.find, hcnt]
    norm_num [nsrc, vget, vset]
    exact hcnt
  refine ⟨_, _, c0, ⟨latchModel [(1, nsrc (-1) 1 1 true)], c0.names, [[-1]], c0.fixed, c0.target, c0.refs,
    [[-1]], [0], [-1], [1], false⟩, hm, hm', a1, ?_, ?_, ?_⟩
  · rw [update, a2, a3.namesEq, e, Res.bind_ok]
    show updateWithAction _ _ _ _ _ _ a ch = _
    rw [updateWithAction_eq _ _ _ _ _ _ _ _ hr ha0 hx, hf1, hf2, hx2, hch]
    simp only [onlyIf, Bool.false_eq_true, if_false, Res.bind_ok, if_true, List.foldlM_cons,
      List.foldlM_nil, Res.pure_eq, hut]
    simp [setCache, refactorModel, refactorModels, refactorLoop, curRefs, hfix, href, vget,
      refactorFromModel, a3.namesEq, statusAndScales, StdMap.find, nsrc]
  · simp [scanned, bin]
  · simp [total, nsrc, sumCounts, counts, shape1, bin]

/-- C57 is violated: a cache without templates does survive a rebuild, but the counts of
the fixed sources of the model before stay in the fixed part: here a source of one count
is freed and is scanned as two counts. -/
theorem C57_rebuild_fixed_violates :
    ∃ (m m' : List (ℕ × Src ℕ)) (c0 c : Cache ℕ), IsModel m ∧ IsModel m' ∧
      construct (counts shape1) 1 0 false m = .ok c0 ∧
      update (counts shape1) 1 0 false m' c0 = .ok c ∧
      scanned c.curFixed c.curPars c.curModels 0 = 2 ∧ total shape1 0 m' 0 = 1 := by
  have hm : IsModel [(1, nsrc 1 1 0 false)] := model1 _ (nsrc_distinct _ _ _ _)
  have hm' : IsModel [(1, nsrc 1 1 0 true)] := model1 _ (nsrc_distinct _ _ _ _)
  have hfree : (freeSources 0 [(1, nsrc 1 1 0 false)]).map Prod.fst = [] := by simp [freeSources, nsrc]
  obtain ⟨c0, a1, a2, a3, _, _, a6, a7⟩ := construct_ok (shape := shape1) (nbins := 1)
    (by intro _ _ _; rfl) false 0 hm (by simp [freeSources, nsrc])
  rw [hfree] at a3
  obtain ⟨a, ch, e, hreb⟩ := C57_rebuild _ _ hm hm' []
  have hr : hit a rebuild = true :=
    hreb.2 (Or.inr ⟨1, nsrc 1 1 0 false, nsrc 1 1 0 true, by simp, ⟨by simp, by simp⟩, rfl, rfl⟩)
  have href : c0.refs = [] := by rw [a6]; simp [freeSources, nsrc]
  have hmod : c0.models = [] := by rw [a3.models, href]; simp
  have hfix : c0.fixed = [1] := by
    have h1 := a3.fixed.1
    have h2 := a3.fixed.2 0
    obtain ⟨x, hx⟩ := List.length_eq_one_iff.1 h1
    rw [hx] at h2 ⊢
    simp [bin, sumCounts, List.filter_cons, nsrc, counts, shape1] at h2
    rw [h2]
  refine ⟨_, _, c0, ⟨latchModel [(1, nsrc 1 1 0 true)], [1], [[1]], [1], vresize c0.target 1 0, [1],
    [[1]], [1], [1], [1], false⟩, hm, hm', a1, ?_, ?_, ?_⟩
  · rw [update, a2, a3.namesEq, e, Res.bind_ok]
    show updateWithAction _ _ _ _ _ _ a ch = _
    rw [updateWithAction, if_pos hr]
    simp [buildFromModel, extractModels, extractBody, nsrc, counts, shape1, setCache, refactorModel,
      refactorModels, refactorLoop, curRefs, hfix, href, hmod, vget, a3.namesEq, vresize]
  · norm_num [scanned, bin]
  · simp [total, nsrc, sumCounts, counts, shape1, bin]

/-! ### The hypotheses can be met -/

/-- A change of normalisation and index of a source with template, and of the
normalisation of a fixed source. -/
private theorem ex_gentle : Gentle [1] [(1, nsrc 1 1 0 true), (2, nsrc 1 1 0 false)]
    [(1, nsrc 3 1 2 true), (2, nsrc 5 1 0 false)] := by
  have c1 : ¬ Close (1 : ℝ) 3 := not_close (by norm_num)
  have c2 : ¬ Close (1 : ℝ) 5 := not_close (by norm_num)
  have c3 : ¬ Close (0 : ℝ) 2 := not_close (by norm_num)
  refine ⟨model2 _ _ (nsrc_distinct _ _ _ _) (nsrc_distinct _ _ _ _), ?_, ?_, ?_, ?_, ?_, ?_, ?_⟩
  · rintro n t ⟨h1, h2⟩
    simp only [List.mem_cons, Prod.mk.injEq, List.not_mem_nil, or_false] at h1
    simp only [List.map_cons, List.map_nil, List.mem_cons, List.not_mem_nil, or_false] at h2
    omega
  · intro n s t h1 h2 h3
    rcases both2 h2 with ⟨rfl, rfl, rfl⟩ | ⟨rfl, rfl, rfl⟩
    · simp at h1
    · rfl
  · rintro n hn ⟨h1, h2⟩
    simp at hn h2; omega
  · intro n s t h1 h2
    rcases both2 h2 with ⟨rfl, rfl, rfl⟩ | ⟨rfl, rfl, rfl⟩
    · exact ⟨⟨rfl, fun _ => Iff.rfl⟩, ⟨rfl, fun _ => Iff.rfl⟩, rfl⟩
    · simp at h1
  · intro n t h1 h2 h3
    simp only [List.mem_cons, Prod.mk.injEq, List.not_mem_nil, or_false] at h1 h3
    rcases h3 with ⟨_, rfl⟩ | ⟨h3, rfl⟩
    · norm_num [nsrc]
    · omega
  · intro n s t h1 h2
    rcases both2 h1 with ⟨rfl, rfl, rfl⟩ | ⟨rfl, rfl, rfl⟩
    · exact absurd (by simpa [nsrc] using h2.1.1) c1
    · exact absurd (by simpa [nsrc] using h2.1.1) c2
  · intro n s t h1 h2 h3 h4
    rcases both2 h2 with ⟨rfl, rfl, rfl⟩ | ⟨rfl, rfl, rfl⟩
    · exact absurd h3 (index_ne c3)
    · simp at h1

private theorem ex_free : (freeSources 0 [(1, nsrc 1 1 0 true), (2, nsrc 1 1 0 false)]).map Prod.fst = [1] := by
  simp [freeSources, nsrc]

/-- The cache is built, the test source is added, the model changes and the cache is
updated. -/
example : ∃ c0 c models pars v,
    construct (counts shape1) 1 0 true [(1, nsrc 1 1 0 true), (2, nsrc 1 1 0 false)] = .ok c0 ∧
    [Op.addTest 7, Op.update [(1, nsrc 3 1 2 true), (2, nsrc 5 1 0 false)]].foldlM
      (step (counts shape1) 1 0 true) c0 = .ok c ∧
    InLine shape1 1 0 [(1, nsrc 3 1 2 true), (2, nsrc 5 1 0 false)] c.curFixed pars c.curRefs models ∧
    c.curModels = models ++ (if c.curTest then [c.target] else []) ∧
    c.curPars = pars ++ (if c.curTest then [v] else []) :=
  C57_history_partial shape1 1 (by intro _ _ _; rfl) true 0 _
    (model2 _ _ (nsrc_distinct _ _ _ _) (nsrc_distinct _ _ _ _)) (by simp [freeSources, nsrc])
    [Op.addTest 7, Op.update [(1, nsrc 3 1 2 true), (2, nsrc 5 1 0 false)]]
    (by rw [ex_free]; exact ⟨ex_gentle, trivial⟩)

/-- The test source is lost. -/
example : ∃ c0 c c', construct (counts shape1) 1 0 true [(1, nsrc 1 1 0 true), (2, nsrc 1 1 0 false)] = .ok c0 ∧
    [Op.addTest 7].foldlM (step (counts shape1) 1 0 true) c0 = .ok c ∧ c.curTest = true ∧
    update (counts shape1) 1 0 true [(1, nsrc 3 1 2 true), (2, nsrc 5 1 0 false)] c = .ok c' ∧
    c'.curTest = false := by
  obtain ⟨c0, c, c', h1, h2, h3, h4, h5⟩ := C57_test_violates shape1 1 (by intro _ _ _; rfl) true 0 _ _
    (model2 _ _ (nsrc_distinct 1 1 0 true) (nsrc_distinct 1 1 0 false)) (by simp [freeSources, nsrc]) [] 7
    (by trivial) (by rw [ex_free]; exact ex_gentle)
  refine ⟨c0, c, c', h1, h2, h3, h4, h5.2 (Or.inr (Or.inl ⟨2, ?_, Or.inr ⟨_, _, ⟨by
    show (2, nsrc 1 1 0 false) ∈ [(1, nsrc 1 1 0 true), (2, nsrc 1 1 0 false)]; simp, by
    show (2, nsrc 5 1 0 false) ∈ [(1, nsrc 3 1 2 true), (2, nsrc 5 1 0 false)]; simp⟩, ?_⟩⟩))⟩
  · rw [ex_free]; simp
  · intro h
    exact absurd (by simpa [nsrc] using h.1.1) (not_close (by norm_num) : ¬ Close (1 : ℝ) 5)

/-- The fixed source of the example is freed. -/
example : ∃ c, construct (counts shape1) 1 0 true [(1, nsrc 1 1 0 true), (2, nsrc 1 1 0 false)] = .ok c ∧
    update (counts shape1) 1 0 true [(1, nsrc 1 1 0 true), (2, nsrc 1 1 0 true)] c = .ub :=
  C57_rebuild_violates shape1 1 (by intro _ _ _; rfl) true 0 _ _
    (model2 _ _ (nsrc_distinct _ _ _ _) (nsrc_distinct _ _ _ _))
    (model2 _ _ (nsrc_distinct _ _ _ _) (nsrc_distinct _ _ _ _)) (by simp [freeSources, nsrc])
    (by simp [freeSources, nsrc])
    (Or.inr ⟨2, nsrc 1 1 0 false, nsrc 1 1 0 true, by rw [ex_free]; simp, ⟨by simp, by simp⟩, rfl, rfl⟩)

/-- The test source is in the model. -/
example : ∃ c0 c, construct (counts shape1) 1 2 true [(1, nsrc 1 1 0 true), (2, nsrc 1 1 0 false)] = .ok c0 ∧
    [Op.update [(1, nsrc 3 1 2 true), (2, nsrc 5 1 0 false)]].foldlM (step (counts shape1) 1 2 true) c0 = .ok c ∧
    ∀ b, bin c.target b = bin [1] b :=
  C57_target_violates shape1 1 (by intro _ _ _; rfl) true 2 _
    (model2 _ _ (nsrc_distinct _ _ _ _) (nsrc_distinct _ _ _ _)) (by simp [freeSources, nsrc])
    (nsrc 1 1 0 false) (by simp) (by simp [nsrc]) _
    (by
      have : (freeSources 2 [(1, nsrc 1 1 0 true), (2, nsrc 1 1 0 false)]).map Prod.fst = [1] := by
        simp [freeSources, nsrc]
      rw [this]; exact ⟨ex_gentle, trivial⟩)

end Verif.Snap
