import Verif.SrcMap.Model
import Verif.SrcMap.Spec
import Mathlib.Algebra.BigOperators.Intervals
import Mathlib.Tactic.Linarith
/-
Invariants of the source-map state machine.
-/
set_option linter.unusedSectionVars false
set_option linter.unusedSimpArgs false
set_option linter.unusedVariables false
namespace Verif.SrcMap
open Verif Verif.Vec Spec

theorem px_val (m : Image) (i : Nat) : px m i = val m i := rfl

theorem list_sum_range (f : Nat → ℝ) (n : Nat) :
    ((List.range n).map f).sum = ∑ j ∈ Finset.range n, f j := by
  induction n with
  | zero => simp
  | succ n ih => rw [List.range_succ, List.map_append, List.sum_append, Finset.sum_range_succ, ih]; simp

theorem sums_planes (e : Env) (w : Option Image) (m : Image) :
    Sums e.npix e.ne w m (planeSums e m) (weightSums e w m) := by
  refine ⟨by simp [planeSums], by simp [weightSums], fun k hk => ⟨?_, ?_⟩⟩
  · rw [px_val, planeSums, val_map_range _ hk, list_sum_range]; rfl
  · rw [px_val, weightSums, val_map_range _ hk, list_sum_range]
    unfold weightedSum weight
    refine Finset.sum_congr rfl fun j _ => ?_
    cases w <;> simp [px, val]

theorem val_zipWith (m f : Image) (i : Nat) : val (List.zipWith (· * ·) m f) i = val m i * val f i := by
  unfold val
  rw [List.getElem?_zipWith]
  cases m[i]? <;> cases f[i]? <;> simp

/-- The counts agree with the map. -/
def CountsOf (e : Env) (st : St) (m : Image) : Prop :=
  (st.npreds = [] ∧ st.wnpreds = []) ∨
  (st.npreds = planeSums e m ∧ st.wnpreds = weightSums e st.weights m)

/-! ### Counts of full maps, under all calls -/

/-- A full map in memory and its counts agree. -/
def Inv1 (e : Env) (st : St) : Prop := st.model ≠ [] → CountsOf e st st.model

theorem counts_inv1 {e : Env} (hs : e.sparse = false) {st st' : St} (h : counts e st = .ok st') :
    st'.npreds = planeSums e st'.model ∧ st'.wnpreds = weightSums e st'.weights st'.model ∧
      st'.model = st.model ∧ st'.model ≠ [] := by
  unfold counts at h
  rw [if_neg (by simp [hs])] at h
  by_cases hc : st.model.length < e.ne * e.npix ∨ st.model = []
  · rw [if_pos hc] at h; cases h
  · rw [if_neg hc] at h
    cases h
    exact ⟨rfl, rfl, rfl, fun h => hc (Or.inr h)⟩

theorem made {e : Env} (hs : e.sparse = false) {st st' : St} (h : makeModel e st = .ok st') :
    st'.npreds = planeSums e st'.model ∧ st'.wnpreds = weightSums e st'.weights st'.model ∧
      st'.model ≠ [] := by
  unfold makeModel at h
  obtain ⟨s1, _, h⟩ := Res.bind_eq_ok.1 h
  obtain ⟨a, b, _, c⟩ := counts_inv1 hs h
  exact ⟨a, b, c⟩

theorem read {e : Env} (hs : e.sparse = false) {st st' : St} {f : Nat}
    (h : readModel e st f = .ok st') :
    st'.npreds = planeSums e st'.model ∧ st'.wnpreds = weightSums e st'.weights st'.model ∧
      st'.model ≠ [] := by
  unfold readModel at h
  cases hf : st.files f with
  | none => rw [hf] at h; cases h
  | some img =>
    simp only [hf] at h
    obtain ⟨s1, _, h⟩ := Res.bind_eq_ok.1 h
    obtain ⟨s2, h2, h⟩ := Res.bind_eq_ok.1 h
    cases h
    obtain ⟨a, b, _, c⟩ := counts_inv1 hs h2
    exact ⟨a, b, c⟩

theorem remade {e : Env} (hs : e.sparse = false) {st st' : St} (h : remake e st = .ok st') :
    st'.npreds = planeSums e st'.model ∧ st'.wnpreds = weightSums e st'.weights st'.model ∧
      st'.model ≠ [] := by
  unfold remake at h
  cases hf : st.fname with
  | none => rw [hf] at h; exact made hs h
  | some f =>
    simp only [hf] at h
    by_cases hc : (st.files f).isSome = true
    · rw [if_pos hc] at h; exact read hs h
    · rw [if_neg hc] at h; exact made hs h

theorem computed {e : Env} (hs : e.sparse = false) {st st' : St}
    (h : computeNpreds e st = .ok st') :
    st'.npreds = planeSums e st'.model ∧ st'.wnpreds = weightSums e st'.weights st'.model ∧
      st'.model ≠ [] ∧ (st.model ≠ [] → st'.model = st.model) := by
  unfold computeNpreds at h
  by_cases hc : e.sparse = false ∧ st.model = []
  · rw [if_pos hc] at h
    obtain ⟨a, b, c⟩ := remade hs h
    exact ⟨a, b, c, fun hn => absurd hc.2 hn⟩
  · rw [if_neg hc] at h
    obtain ⟨a, b, c, d⟩ := counts_inv1 hs h
    exact ⟨a, b, d, fun _ => c⟩

theorem got {e : Env} (hs : e.sparse = false) {st st' : St} (h : readOrMake e st = .ok st') :
    Inv1 e st' := by
  unfold readOrMake at h
  cases hf : st.fname with
  | none => rw [hf] at h; exact fun _ => Or.inr ⟨(made hs h).1, (made hs h).2.1⟩
  | some f => rw [hf] at h; exact fun _ => Or.inr ⟨(read hs h).1, (read hs h).2.1⟩

theorem source_inv1 {e : Env} (hs : e.sparse = false) {st st' : St} {t : Nat} (hi : Inv1 e st)
    (h : setSource e st t = .ok st') : Inv1 e st' := by
  unfold setSource at h
  by_cases h1 : st.src = t
  · rw [if_pos h1] at h
    by_cases h2 : st.loaded = false ∨ (st.save = true ∧ st.model = [] ∧ st.sp = [])
    · rw [if_pos h2] at h
      obtain ⟨s1, h3, h⟩ := Res.bind_eq_ok.1 h
      cases hf : s1.fname with
      | none => rw [hf] at h; cases h; exact got hs h3
      | some f => rw [hf] at h; cases h; exact fun _ => Or.inl ⟨rfl, rfl⟩
    · rw [if_neg h2] at h; cases h; exact hi
  · rw [if_neg h1] at h; cases h; exact fun _ => Or.inl ⟨rfl, rfl⟩

theorem model_inv1 {e : Env} (hs : e.sparse = false) {st st' : St} {b : Bool} (hi : Inv1 e st)
    (h : model e st b = .ok st') : Inv1 e st' ∧ st'.model ≠ [] := by
  unfold model at h
  by_cases hc : st.model = [] ∨ b = true
  · rw [if_pos hc] at h; exact ⟨fun _ => Or.inr ⟨(remade hs h).1, (remade hs h).2.1⟩, (remade hs h).2.2⟩
  · rw [if_neg hc] at h; cases h; exact ⟨hi, fun h => hc (Or.inl h)⟩

theorem reload_inv1 {e : Env} (hs : e.sparse = false) {st st' : St} (hi : Inv1 e st)
    (h : reload e st = .ok st') : Inv1 e st' := by
  unfold reload at h
  by_cases hc : st.cleared = true
  · rw [if_pos hc] at h
    obtain ⟨s1, h1, h⟩ := Res.bind_eq_ok.1 h
    cases h
    have := got hs h1; exact this
  · rw [if_neg hc] at h; cases h; exact hi

theorem write_inv1 {e : Env} (hs : e.sparse = false) {st st' : St} {f : Nat} {g : Bool}
    (hi : Inv1 e st) (h : writeMap e st f g = .ok st') : Inv1 e st' := by
  unfold writeMap at h
  obtain ⟨s1, h1, h⟩ := Res.bind_eq_ok.1 h
  obtain ⟨s2, h2, h⟩ := Res.bind_eq_ok.1 h
  have i1 := source_inv1 hs hi h1
  have i2 : Inv1 e s2 := by
    by_cases hc : s1.model = [] ∧ s1.sp = []
    · rw [if_pos hc] at h2; exact (model_inv1 hs i1 h2).1
    · rw [if_neg hc] at h2; cases h2; exact i1
  cases h
  cases g <;> exact i2

theorem step_inv1 {e : Env} (hs : e.sparse = false) {st st' : St} {o : Op} (hi : Inv1 e st)
    (h : step e st o = .ok st') : Inv1 e st' := by
  cases o with
  | model b => exact (model_inv1 hs hi h).1
  | npreds b =>
    change npreds e st b = .ok st' at h
    unfold npreds at h
    by_cases hc : st.npreds = [] ∨ b = true
    · rw [if_pos hc] at h
      exact fun _ => Or.inr ⟨(computed hs h).1, (computed hs h).2.1⟩
    · rw [if_neg hc] at h; cases h; exact hi
  | clear b =>
    cases h
    unfold clear
    by_cases hc : b = true ∨ (st.save = false ∧ st.loc = false)
    · rw [if_pos hc]; exact fun h => absurd rfl h
    · rw [if_neg hc]; exact hi
  | reload => exact reload_inv1 hs hi h
  | setSave b =>
    change setSave e st b = .ok st' at h
    unfold setSave at h
    by_cases hc : b = true
    · rw [if_pos hc] at h; exact reload_inv1 hs (st := { st with save := true }) hi h
    · rw [if_neg hc] at h; cases h; exact hi
  | setImage i =>
    change setImage e st i = .ok st' at h
    unfold setImage at h
    by_cases hc : i.length ≠ st.model.length ∧ st.model ≠ []
    · rw [if_pos hc] at h; cases h
    · rw [if_neg hc] at h
      obtain ⟨s1, _, h⟩ := Res.bind_eq_ok.1 h
      exact fun _ => Or.inr ⟨(computed hs h).1, (computed hs h).2.1⟩
  | setWeights w => exact fun _ => Or.inr ⟨(computed hs h).1, (computed hs h).2.1⟩
  | setSource t => exact source_inv1 hs hi h
  | saveMap f r g =>
    change saveMap e st f r g = .ok st' at h
    unfold saveMap at h
    by_cases h1 : (st.files f).isSome = true
    · rw [if_pos h1] at h
      by_cases h2 : r = true
      · rw [if_pos h2] at h; exact write_inv1 hs hi h
      · rw [if_neg h2] at h; cases h; exact hi
    · rw [if_neg h1] at h; exact write_inv1 hs hi h

theorem run_inv {e : Env} (I : St → Prop) (P : Op → Prop)
    (hst : ∀ st o st', P o → I st → step e st o = .ok st' → I st') :
    ∀ {ops : List Op} {st st' : St}, (∀ o ∈ ops, P o) → I st → run e st ops = .ok st' → I st'
  | [], st, st', _, hi, h => by cases h; exact hi
  | o :: os, st, st', hp, hi, h => by
    obtain ⟨s1, h1, h⟩ := Res.bind_eq_ok.1 h
    exact run_inv I P hst (fun o ho => hp o (List.mem_cons_of_mem _ ho))
      (hst st o s1 (hp o List.mem_cons_self) hi h1) h

theorem source_start {e : Env} (hs : e.sparse = false) {files : Nat → Option Image} {s : Nat}
    {sv : Bool} {w : Option Image} {st : St} (h : fromSource e files s sv w = .ok st) : Inv1 e st := by
  unfold fromSource at h
  obtain ⟨s1, h1, h⟩ := Res.bind_eq_ok.1 h
  cases h
  exact fun _ => Or.inr ⟨(made hs h1).1, (made hs h1).2.1⟩

theorem file_start {e : Env} (hs : e.sparse = false) {files : Nat → Option Image} {f s : Nat}
    {sv : Bool} {w : Option Image} {st : St} (h : fromFile e files f s sv w = .ok st) : Inv1 e st :=
  fun _ => Or.inr ⟨(read hs h).1, (read hs h).2.1⟩

/-! ### The image of full maps without a phased exposure map -/

variable {e : Env} {s n : Nat}

theorem applyPhase_none (hs : e.sparse = false) (hp : e.phase = none) (st : St) :
    applyPhase e st = .ok st := by
  unfold applyPhase phaseFull
  rw [if_neg (by simp [hs]), hp]; rfl

theorem counts_full (hs : e.sparse = false) {st : St} {cur : Image} (hm : st.model = cur)
    (hc : cur.length = e.ne * e.npix) (hn : 0 < e.ne * e.npix) :
    counts e st = .ok { st with npreds := planeSums e cur, wnpreds := weightSums e st.weights cur } := by
  have h1 : cur ≠ [] := by
    intro h; rw [h, List.length_nil] at hc; omega
  unfold counts
  rw [if_neg (by simp [hs]), if_neg (by rw [hm]; rintro (h | h) <;> [omega; exact h1 h]), hm]

/-- Where a dropped map comes back from. -/
def Back (e : Env) (s : Nat) (st : St) (cur : Image) : Prop :=
  match st.fname with
  | some f => st.files f = some cur
  | none => e.own s = cur

/-- The map is or can become again the image `cur`. -/
structure Inv2 (e : Env) (s : Nat) (c : Bool) (cur : Image) (st : St) : Prop where
  src : st.src = s
  loaded : st.loaded = true
  spn : st.sp = []
  len : cur.length = e.ne * e.npix
  mem : st.model = [] ∨ st.model = cur
  gone : st.model = [] → st.loc = false
  back : st.loc = false ∨ st.cleared = true → Back e s st cur
  flag : st.cleared = true → c = true
  cnt : CountsOf e st cur

variable {c : Bool} {cur : Image} {st : St}

theorem read_ok (hs : e.sparse = false) (hp : e.phase = none) (hn : 0 < e.ne * e.npix)
    (hl : cur.length = e.ne * e.npix) {f : Nat} (hf : st.files f = some cur) :
    readModel e st f = .ok { st with
      fname := some f, loc := false, model := cur, loaded := true
      npreds := planeSums e cur, wnpreds := weightSums e st.weights cur } := by
  unfold readModel
  simp only [hf, hs, applyPhase_none hs hp, Res.bind_ok, Bool.false_eq_true, if_false]
  rw [counts_full hs (cur := cur) rfl hl hn]
  rfl

theorem make_ok (hs : e.sparse = false) (hp : e.phase = none) (hn : 0 < e.ne * e.npix)
    (hl : cur.length = e.ne * e.npix) (hsrc : st.src = s) (ho : e.own s = cur) :
    makeModel e st = .ok { st with
      loc := true, model := cur
      npreds := planeSums e cur, wnpreds := weightSums e st.weights cur } := by
  unfold makeModel
  simp only [hs, applyPhase_none hs hp, Res.bind_ok, Bool.false_eq_true, if_false, hsrc, ho]
  rw [counts_full hs (cur := cur) rfl hl hn]

theorem remake_none (h : st.fname = none) : remake e st = makeModel e st := by
  unfold remake; rw [h]

theorem remake_some {f : Nat} (h : st.fname = some f) (h' : st.files f = some cur) :
    remake e st = readModel e st f := by
  unfold remake; rw [h]; simp only [h', Option.isSome_some, if_true]

theorem rom_none (h : st.fname = none) : readOrMake e st = makeModel e st := by
  unfold readOrMake; rw [h]

theorem rom_some {f : Nat} (h : st.fname = some f) : readOrMake e st = readModel e st f := by
  unfold readOrMake; rw [h]

/-- What reading or making the map does to the invariant. -/
theorem fetch (hs : e.sparse = false) (hp : e.phase = none) (hn : 0 < e.ne * e.npix)
    (hi : Inv2 e s c cur st) (hb : Back e s st cur) :
    ∃ st', remake e st = .ok st' ∧ Inv2 e s c cur st' ∧ st'.model = cur ∧
      st'.cleared = st.cleared ∧ st'.fname = st.fname ∧ st'.files = st.files ∧ st'.save = st.save ∧
      readOrMake e st = .ok st' := by
  cases hf : st.fname with
  | none =>
    have ho : e.own s = cur := by unfold Back at hb; rw [hf] at hb; exact hb
    have hk := make_ok (st := st) hs hp hn hi.len hi.src ho
    refine ⟨{ st with
        loc := true, model := cur
        npreds := planeSums e cur, wnpreds := weightSums e st.weights cur }, (remake_none hf).trans hk, ?_, rfl,
      rfl, hf, rfl, rfl, (rom_none hf).trans hk⟩
    refine ⟨hi.src, hi.loaded, hi.spn, hi.len, Or.inr rfl, fun h => ?_, fun _ => ?_, hi.flag, Or.inr ⟨rfl, rfl⟩⟩
    · simp only at h; rw [h] at hi; have := hi.len; rw [List.length_nil] at this; omega
    · unfold Back; simp only [hf]; exact ho
  | some f =>
    have ho : st.files f = some cur := by unfold Back at hb; rw [hf] at hb; exact hb
    have hk := read_ok (st := st) hs hp hn hi.len ho
    refine ⟨{ st with
        fname := some f, loc := false, model := cur, loaded := true
        npreds := planeSums e cur, wnpreds := weightSums e st.weights cur },
      (remake_some hf ho).trans hk, ?_, rfl, rfl,
      rfl, rfl, rfl, (rom_some hf).trans hk⟩
    exact ⟨hi.src, rfl, hi.spn, hi.len, Or.inr rfl, fun _ => rfl, fun _ => ho, hi.flag, Or.inr ⟨rfl, rfl⟩⟩

theorem back_gone (hi : Inv2 e s c cur st) (h : st.model = []) : Back e s st cur :=
  hi.back (Or.inl (hi.gone h))

theorem cur_ne (hn : 0 < e.ne * e.npix) (hi : Inv2 e s c cur st) : cur ≠ [] := by
  intro h; have := hi.len; rw [h, List.length_nil] at this; omega

theorem model_ok (hs : e.sparse = false) (hp : e.phase = none) (hn : 0 < e.ne * e.npix)
    (hi : Inv2 e s c cur st) :
    ∃ st', model e st false = .ok st' ∧ Inv2 e s c cur st' ∧ st'.model = cur := by
  unfold model
  by_cases h : st.model = []
  · rw [if_pos (Or.inl h)]
    obtain ⟨st', a, b, d, _⟩ := fetch hs hp hn hi (back_gone hi h)
    exact ⟨st', a, b, d⟩
  · rw [if_neg (by simp [h])]
    exact ⟨st, rfl, hi, hi.mem.resolve_left h⟩

theorem recount (hs : e.sparse = false) (hp : e.phase = none) (hn : 0 < e.ne * e.npix)
    (hi : Inv2 e s c cur st) (w : Option Image) :
    ∃ st', computeNpreds e { st with weights := w } = .ok st' ∧ Inv2 e s c cur st' ∧
      st'.npreds = planeSums e cur := by
  have hc := cur_ne hn hi
  by_cases h : st.model = []
  · have hi' : Inv2 e s c cur { st with weights := w, npreds := [], wnpreds := [] } :=
      ⟨hi.src, hi.loaded, hi.spn, hi.len, hi.mem, hi.gone, hi.back, hi.flag, Or.inl ⟨rfl, rfl⟩⟩
    unfold computeNpreds
    rw [if_pos ⟨hs, h⟩]
    have hb : Back e s { st with weights := w } cur := by have := back_gone hi h; exact this
    obtain hf | ⟨f, hf⟩ : st.fname = none ∨ ∃ f, st.fname = some f := by
      cases st.fname <;> simp
    · have ho : e.own s = cur := by unfold Back at hb; simp only [hf] at hb; exact hb
      have hk := make_ok (st := { st with weights := w }) hs hp hn hi.len hi.src ho
      refine ⟨{ st with
        weights := w, loc := true, model := cur
        npreds := planeSums e cur, wnpreds := weightSums e w cur },
        (remake_none (st := { st with weights := w }) hf).trans hk, ?_, rfl⟩
      refine ⟨hi.src, hi.loaded, hi.spn, hi.len, Or.inr rfl, fun h => absurd h hc, fun _ => ?_, hi.flag,
        Or.inr ⟨rfl, rfl⟩⟩
      unfold Back; simp only [hf]; exact ho
    · have ho : st.files f = some cur := by unfold Back at hb; simp only [hf] at hb; exact hb
      have hk := read_ok (st := { st with weights := w }) hs hp hn hi.len ho
      refine ⟨{ st with
        weights := w, fname := some f, loc := false, model := cur, loaded := true
        npreds := planeSums e cur, wnpreds := weightSums e w cur },
        (remake_some (st := { st with weights := w }) hf ho).trans hk, ?_, rfl⟩
      exact ⟨hi.src, rfl, hi.spn, hi.len, Or.inr rfl, fun _ => rfl, fun _ => ho, hi.flag, Or.inr ⟨rfl, rfl⟩⟩
  · have hm := hi.mem.resolve_left h
    unfold computeNpreds
    rw [if_neg (by rintro ⟨_, h'⟩; exact h h'),
      counts_full (st := { st with weights := w }) hs hm hi.len hn]
    exact ⟨_, rfl, ⟨hi.src, hi.loaded, hi.spn, hi.len, hi.mem, hi.gone, hi.back, hi.flag, Or.inr ⟨rfl, rfl⟩⟩, rfl⟩

theorem reload_ok (hs : e.sparse = false) (hp : e.phase = none) (hn : 0 < e.ne * e.npix)
    (hi : Inv2 e s c cur st) : ∃ st', reload e st = .ok st' ∧ Inv2 e s false cur st' := by
  unfold reload
  by_cases h : st.cleared = true
  · rw [if_pos h]
    obtain ⟨st', a, b, d, e1, _, _, _, hk⟩ := fetch hs hp hn hi (hi.back (Or.inr h))
    rw [hk, Res.bind_ok]
    refine ⟨_, rfl, ⟨b.src, b.loaded, b.spn, b.len, b.mem, b.gone, fun h' => b.back (Or.inr (e1.trans h)),
      fun h => ?_, b.cnt⟩⟩
    simp at h
  · rw [if_neg h]
    exact ⟨st, rfl, ⟨hi.src, hi.loaded, hi.spn, hi.len, hi.mem, hi.gone, hi.back, fun h' => absurd h' h, hi.cnt⟩⟩

theorem source_ok (hs : e.sparse = false) (hp : e.phase = none) (hn : 0 < e.ne * e.npix)
    (hi : Inv2 e s c cur st) : ∃ st', setSource e st s = .ok st' ∧ Inv2 e s c cur st' := by
  unfold setSource
  rw [if_pos hi.src]
  by_cases h : st.loaded = false ∨ (st.save = true ∧ st.model = [] ∧ st.sp = [])
  · rw [if_pos h]
    have hm : st.model = [] := by
      rcases h with h | h
      · rw [hi.loaded] at h; cases h
      · exact h.2.1
    obtain ⟨st', a, b, d, _, e2, e3, _, hk⟩ := fetch hs hp hn hi (back_gone hi hm)
    have hst : ({ st with loaded := true } : St) = st := by
      have := hi.loaded; cases st; simp only at this; subst this; rfl
    have hg : getData e st = .ok st' := by
      unfold getData; rw [hst]; exact hk
    rw [hg, Res.bind_ok]
    cases hf : st'.fname with
    | none => exact ⟨st', rfl, b⟩
    | some f =>
      refine ⟨_, rfl, ⟨b.src, b.loaded, b.spn, b.len, b.mem, fun _ => rfl, fun _ => ?_, b.flag,
        Or.inl ⟨rfl, rfl⟩⟩⟩
      have hb := back_gone hi hm
      unfold Back at hb ⊢
      rw [← e2, ← e3] at hb
      exact hb
  · rw [if_neg h]; exact ⟨st, rfl, hi⟩

theorem write_ok (hs : e.sparse = false) (hp : e.phase = none) (hn : 0 < e.ne * e.npix)
    (hi : Inv2 e s c cur st) (f : Nat) : ∃ st', writeMap e st f true = .ok st' ∧ Inv2 e s c cur st' := by
  unfold writeMap
  rw [hi.src]
  obtain ⟨s1, h1, i1⟩ := source_ok hs hp hn hi
  rw [h1, Res.bind_ok]
  have hx : ∃ s2, (if s1.model = [] ∧ s1.sp = [] then model e s1 false else Res.ok s1) = .ok s2 ∧
      Inv2 e s c cur s2 ∧ s2.model = cur := by
    by_cases h : s1.model = [] ∧ s1.sp = []
    · rw [if_pos h]; exact model_ok hs hp hn i1
    · rw [if_neg h]; exact ⟨s1, rfl, i1, i1.mem.resolve_left fun h' => h ⟨h', i1.spn⟩⟩
  obtain ⟨s2, h2, i2, hm⟩ := hx
  rw [h2, Res.bind_ok]
  refine ⟨_, rfl, ?_⟩
  simp only [if_true]
  refine ⟨i2.src, i2.loaded, i2.spn, i2.len, i2.mem, fun _ => rfl, fun _ => ?_, i2.flag, i2.cnt⟩
  unfold Back
  simp [written, hs, hm]

theorem clear_ok (hn : 0 < e.ne * e.npix) (hi : Inv2 e s c cur st) :
    Inv2 e s true cur (clear st false) := by
  unfold clear
  by_cases h : st.save = false ∧ st.loc = false
  · rw [if_pos (Or.inr h)]
    exact ⟨hi.src, hi.loaded, rfl, hi.len, Or.inl rfl, fun _ => rfl, fun _ => hi.back (Or.inl h.2),
      fun _ => rfl, hi.cnt⟩
  · rw [if_neg (by simpa using h)]
    exact ⟨hi.src, hi.loaded, hi.spn, hi.len, hi.mem, hi.gone, hi.back, fun _ => rfl, hi.cnt⟩

theorem image_ok (hs : e.sparse = false) (hp : e.phase = none) (hn : 0 < e.ne * e.npix)
    (hi : Inv2 e s false cur st) {i : Image} (hl : i.length = e.ne * e.npix) :
    ∃ st', setImage e st i = .ok st' ∧ Inv2 e s false i st' := by
  have hne : i ≠ [] := by
    intro h; rw [h, List.length_nil] at hl; omega
  unfold setImage
  rw [if_neg (by
    rintro ⟨h1, h2⟩
    rcases hi.mem with h | h
    · exact h2 h
    · rw [h, hi.len] at h1; exact h1 hl), applyPhase_none hs hp, Res.bind_ok]
  unfold computeNpreds
  rw [if_neg (by rintro ⟨_, h⟩; exact hne h), counts_full hs (cur := i) rfl hl hn]
  refine ⟨_, rfl, ⟨hi.src, hi.loaded, hi.spn, hl, Or.inr rfl, fun h => absurd h hne, fun h => ?_,
    hi.flag, Or.inr ⟨rfl, rfl⟩⟩⟩
  rcases h with h | h
  · cases h
  · exact absurd (hi.flag h) (by simp)

theorem image_full (hs : e.sparse = false) (hp : e.phase = none) (hn : 0 < e.ne * e.npix)
    {i : Image} (hl : i.length = e.ne * e.npix)
    (hm : st.model = [] ∨ st.model.length = e.ne * e.npix) :
    setImage e st i = .ok { st with
      model := i, loc := true
      npreds := planeSums e i, wnpreds := weightSums e st.weights i } := by
  have hne : i ≠ [] := by
    intro h; rw [h, List.length_nil] at hl; omega
  unfold setImage
  rw [if_neg (by
    rintro ⟨h1, h2⟩
    rcases hm with h | h
    · exact h2 h
    · rw [h] at h1; exact h1 hl), applyPhase_none hs hp, Res.bind_ok]
  unfold computeNpreds
  rw [if_neg (by rintro ⟨_, h⟩; exact hne h), counts_full hs (cur := i) rfl hl hn]

theorem npreds_ok (hs : e.sparse = false) (hp : e.phase = none) (hn : 0 < e.ne * e.npix)
    (hi : Inv2 e s c cur st) (b : Bool) :
    ∃ st', npreds e st b = .ok st' ∧ Inv2 e s c cur st' ∧
      st'.npreds = planeSums e cur ∧ st'.wnpreds = weightSums e st'.weights cur := by
  unfold npreds
  by_cases h : st.npreds = [] ∨ b = true
  · rw [if_pos h]
    obtain ⟨st', a, i, n⟩ := recount hs hp hn hi st.weights
    refine ⟨st', a, i, n, ?_⟩
    rcases i.cnt with h | h
    · rw [h.1] at n
      have := congrArg List.length n
      simp [planeSums] at this
      rw [← this, Nat.zero_mul] at hn
      omega
    · exact h.2
  · rw [if_neg h]
    refine ⟨st, rfl, hi, ?_⟩
    rcases hi.cnt with h' | h'
    · exact absurd (Or.inl h'.1) h
    · exact h'

theorem steps_ok (hs : e.sparse = false) (hp : e.phase = none) (hn : 0 < e.ne * e.npix) :
    ∀ {ops : List Op} {c : Bool} {cur : Image} {st : St}, Inv2 e s c cur st →
      Ordinary s (e.ne * e.npix) c ops →
      ∃ st' c', run e st ops = .ok st' ∧ Inv2 e s c' (latest cur ops) st'
  | [], c, cur, st, hi, _ => ⟨st, c, rfl, hi⟩
  | o :: os, c, cur, st, hi, ho => by
    cases o with
    | model b =>
      obtain ⟨rfl, ho⟩ := ho
      obtain ⟨s1, h1, i1, _⟩ := model_ok hs hp hn hi
      obtain ⟨s2, c2, h2, i2⟩ := steps_ok (ops := os) hs hp hn i1 ho
      exact ⟨s2, c2, Res.bind_eq_ok.2 ⟨s1, h1, h2⟩, i2⟩
    | npreds b =>
      obtain ⟨s1, h1, i1, _⟩ := npreds_ok hs hp hn hi b
      obtain ⟨s2, c2, h2, i2⟩ := steps_ok (ops := os) hs hp hn i1 ho
      exact ⟨s2, c2, Res.bind_eq_ok.2 ⟨s1, h1, h2⟩, i2⟩
    | clear b =>
      obtain ⟨rfl, ho⟩ := ho
      obtain ⟨s2, c2, h2, i2⟩ := steps_ok (ops := os) hs hp hn (clear_ok hn hi) ho
      exact ⟨s2, c2, Res.bind_eq_ok.2 ⟨_, rfl, h2⟩, i2⟩
    | reload =>
      obtain ⟨s1, h1, i1⟩ := reload_ok hs hp hn hi
      obtain ⟨s2, c2, h2, i2⟩ := steps_ok (ops := os) hs hp hn i1 ho
      exact ⟨s2, c2, Res.bind_eq_ok.2 ⟨s1, h1, h2⟩, i2⟩
    | setSave b =>
      cases b with
      | true =>
        have hi' : Inv2 e s c cur { st with save := true } :=
          ⟨hi.src, hi.loaded, hi.spn, hi.len, hi.mem, hi.gone, hi.back, hi.flag, hi.cnt⟩
        obtain ⟨s1, h1, i1⟩ := reload_ok hs hp hn hi'
        have ho' : Ordinary s (e.ne * e.npix) false os := by
          have h : Ordinary s (e.ne * e.npix) (c && !true) os := ho
          simpa using h
        obtain ⟨s2, c2, h2, i2⟩ := steps_ok (ops := os) hs hp hn i1 ho'
        exact ⟨s2, c2, Res.bind_eq_ok.2 ⟨s1, h1, h2⟩, i2⟩
      | false =>
        have hi' : Inv2 e s c cur { st with save := false } :=
          ⟨hi.src, hi.loaded, hi.spn, hi.len, hi.mem, hi.gone, hi.back, hi.flag, hi.cnt⟩
        have ho' : Ordinary s (e.ne * e.npix) c os := by
          have h : Ordinary s (e.ne * e.npix) (c && !false) os := ho
          simpa using h
        obtain ⟨s2, c2, h2, i2⟩ := steps_ok (ops := os) hs hp hn hi' ho'
        exact ⟨s2, c2, Res.bind_eq_ok.2 ⟨_, rfl, h2⟩, i2⟩
    | setImage i =>
      obtain ⟨rfl, hl, ho⟩ := ho
      obtain ⟨s1, h1, i1⟩ := image_ok hs hp hn hi hl
      obtain ⟨s2, c2, h2, i2⟩ := steps_ok (ops := os) hs hp hn i1 ho
      exact ⟨s2, c2, Res.bind_eq_ok.2 ⟨s1, h1, h2⟩, i2⟩
    | setWeights w =>
      obtain ⟨s1, h1, i1, _⟩ := recount hs hp hn hi w
      obtain ⟨s2, c2, h2, i2⟩ := steps_ok (ops := os) hs hp hn i1 ho
      exact ⟨s2, c2, Res.bind_eq_ok.2 ⟨s1, h1, h2⟩, i2⟩
    | setSource t =>
      obtain ⟨ht, ho⟩ := ho
      rw [ht]
      obtain ⟨s1, h1, i1⟩ := source_ok hs hp hn hi
      obtain ⟨s2, c2, h2, i2⟩ := steps_ok (ops := os) hs hp hn i1 ho
      exact ⟨s2, c2, Res.bind_eq_ok.2 ⟨s1, h1, h2⟩, i2⟩
    | saveMap f r g =>
      obtain ⟨rfl, ho⟩ := ho
      have hx : ∃ s1, saveMap e st f r true = .ok s1 ∧ Inv2 e s c cur s1 := by
        unfold saveMap
        by_cases h1 : (st.files f).isSome = true
        · rw [if_pos h1]
          cases r with
          | true => exact write_ok hs hp hn hi f
          | false => exact ⟨st, rfl, hi⟩
        · rw [if_neg h1]; exact write_ok hs hp hn hi f
      obtain ⟨s1, h1, i1⟩ := hx
      obtain ⟨s2, c2, h2, i2⟩ := steps_ok (ops := os) hs hp hn i1 ho
      exact ⟨s2, c2, Res.bind_eq_ok.2 ⟨s1, h1, h2⟩, i2⟩

theorem start_source (hs : e.sparse = false) (hp : e.phase = none) (hn : 0 < e.ne * e.npix)
    (hl : (e.own s).length = e.ne * e.npix) (files : Nat → Option Image) (sv : Bool)
    (w : Option Image) :
    ∃ st, fromSource e files s sv w = .ok st ∧ Inv2 e s false (e.own s) st ∧ st.files = files ∧
      st.fname = none ∧ st.save = sv ∧ st.loc = true ∧ st.model = e.own s ∧ st.cleared = false := by
  unfold fromSource
  rw [make_ok (s := s) (cur := e.own s) hs hp hn hl rfl rfl]
  have hne : e.own s ≠ [] := by
    intro h; rw [h, List.length_nil] at hl; omega
  exact ⟨_, rfl, ⟨rfl, rfl, rfl, hl, Or.inr rfl, fun h => absurd h hne,
    (fun h => by rcases h with h | h <;> cases h), (fun h => by cases h), Or.inr ⟨rfl, rfl⟩⟩, rfl, rfl, rfl, rfl, rfl, rfl⟩

theorem start_file (hs : e.sparse = false) (hp : e.phase = none) (hn : 0 < e.ne * e.npix)
    {files : Nat → Option Image} {f : Nat} {img : Image} (hf : files f = some img)
    (hl : img.length = e.ne * e.npix) (sv : Bool) (w : Option Image) :
    ∃ st, fromFile e files f s sv w = .ok st ∧ Inv2 e s false img st ∧ st.files = files ∧
      st.fname = some f ∧ st.save = sv ∧ st.loc = false ∧ st.model = img ∧ st.cleared = false := by
  unfold fromFile
  rw [read_ok (cur := img) hs hp hn hl (show (blank files s sv w).files f = some img from hf)]
  exact ⟨_, rfl, ⟨rfl, rfl, rfl, hl, Or.inr rfl, fun _ => rfl, fun _ => hf,
    (fun h => by cases h), Or.inr ⟨rfl, rfl⟩⟩, rfl, rfl, rfl, rfl, rfl, rfl⟩

end Verif.SrcMap
