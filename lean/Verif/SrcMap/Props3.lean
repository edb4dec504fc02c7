import Verif.SrcMap.Props
/-
C98 for sparse maps: writing, dropping and reading back.
-/
set_option linter.unusedSimpArgs false
set_option linter.unusedVariables false
namespace Verif.SrcMap
open Verif Verif.Vec Spec

/-- What the cycle needs of the state of a sparse map. -/
structure ReadySparse (e : Env) (s : Nat) (m : Image) (st : St) : Prop where
  src : st.src = s
  loaded : st.loaded = true
  save : st.save = false
  model : st.model = []
  mem : st.sp = m
  len : m.length = e.ne * e.npix

section
variable {e : Env} {s : Nat} {m : Image} {st : St}

/-- The values of the phased exposure map, one without a map. -/
def factor (e : Env) (i : Nat) : ℝ := (e.phase.map fun f => px f i).getD 1

theorem phaseSparse_ok (hf : ∀ f, e.phase = some f → f.length = e.ne * e.npix) (hl : m.length = e.ne * e.npix) :
    (phaseSparse e m).length = e.ne * e.npix ∧ ∀ i, px (phaseSparse e m) i = px m i * factor e i := by
  unfold phaseSparse factor
  cases hp : e.phase with
  | none => exact ⟨hl, fun i => by simp⟩
  | some f =>
    refine ⟨by simp only [List.length_zipWith, hl, hf f hp, Nat.min_self], fun i => ?_⟩
    simp only [Option.map_some, Option.getD_some]
    rw [px_val, val_zipWith, ← px_val, ← px_val]

theorem cycle_sparse (hs : e.sparse = true) (hf : ∀ f, e.phase = some f → f.length = e.ne * e.npix)
    (hn : 0 < e.ne * e.npix) (hi : ReadySparse e s m st) (g : Nat) :
    ∃ st', run e st (cycle g) = .ok st' ∧ ReadySparse e s (phaseSparse e m) st' ∧ st'.files g = some m := by
  have hne : m ≠ [] := by
    intro h; have := hi.len; rw [h, List.length_nil] at this; omega
  have hm : st.sp ≠ [] := by rw [hi.mem]; exact hne
  have h1 : setSource e st st.src = .ok st := by
    unfold setSource
    rw [if_pos rfl, if_neg (by simp [hi.loaded, hm])]
  have h2 : writeMap e st g true = .ok { st with
      fname := some g, loc := false
      files := fun h => if h = g then some m else st.files h } := by
    unfold writeMap
    rw [h1, Res.bind_ok, if_neg (by simp [hm]), Res.bind_ok]
    simp only [if_true, written, hs, hi.mem]
  have h3 : saveMap e st g true true = .ok { st with
      fname := some g, loc := false
      files := fun h => if h = g then some m else st.files h } := by
    unfold saveMap
    by_cases h : (st.files g).isSome = true
    · rw [if_pos h, if_pos rfl, h2]
    · rw [if_neg h, h2]
  unfold cycle
  simp only [run, step, h3, Res.bind_ok, clear, hi.save]
  simp only [Bool.false_eq_true, false_or, and_self, if_true, reload]
  rw [rom_some rfl]
  unfold readModel
  simp only [if_true, hs, applyPhase, Res.bind_ok, counts, and_self]
  exact ⟨_, rfl, ⟨hi.src, rfl, rfl, rfl, rfl, (phaseSparse_ok hf hi.len).1⟩, by simp⟩

theorem cycles_sparse (hs : e.sparse = true) (hf : ∀ f, e.phase = some f → f.length = e.ne * e.npix)
    (hn : 0 < e.ne * e.npix) (g : Nat) : ∀ (k : Nat) (m : Image) (st : St), ReadySparse e s m st →
    ∃ st' m', run e st (List.replicate k (cycle g)).flatten = .ok st' ∧ ReadySparse e s m' st' ∧
      ∀ i, px m' i = px m i * factor e i ^ k
  | 0, m, st, hi => ⟨st, m, rfl, hi, fun i => by simp⟩
  | k + 1, m, st, hi => by
    obtain ⟨s1, h1, i1, -⟩ := cycle_sparse hs hf hn hi g
    obtain ⟨s2, m2, h2, i2, h⟩ := cycles_sparse hs hf hn g k _ _ i1
    refine ⟨s2, m2, ?_, i2, fun i => ?_⟩
    · rw [List.replicate_succ, List.flatten_cons, run_append, h1, Res.bind_ok, h2]
    · rw [h, (phaseSparse_ok hf hi.len).2]; ring

theorem from_sparse (hs : e.sparse = true) (hf : ∀ f, e.phase = some f → f.length = e.ne * e.npix)
    (hl : (e.own s).length = e.ne * e.npix) (files : Nat → Option Image) (w : Option Image) :
    ∃ st, fromSource e files s false w = .ok st ∧ ReadySparse e s (phaseSparse e (e.own s)) st := by
  unfold fromSource makeModel
  simp only [hs, if_true, applyPhase, Res.bind_ok, counts, and_self]
  exact ⟨_, rfl, ⟨rfl, rfl, rfl, rfl, rfl, (phaseSparse_ok hf hl).1⟩⟩

/-- Without a phased exposure map a sparse map survives any number of write-drop-read cycles, and so
does the copy in the file. -/
theorem C98_sparse_cycles_partial (hs : e.sparse = true) (hp : e.phase = none) (hn : 0 < e.ne * e.npix)
    (hl : (e.own s).length = e.ne * e.npix) (files : Nat → Option Image) (w : Option Image) (g k : Nat) :
    ∃ st st', fromSource e files s false w = .ok st ∧
      run e st (List.replicate (k + 1) (cycle g)).flatten = .ok st' ∧
      (∀ i, pixel e st' i = .ok (px (e.own s) i)) ∧
      ∃ img, st'.files g = some img ∧ ∀ i, px img i = px (e.own s) i := by
  have hf : ∀ f, e.phase = some f → f.length = e.ne * e.npix := by
    intro f h
    rw [hp] at h
    cases h
  have hfac : ∀ i, factor e i = 1 := fun i => by simp [factor, hp]
  obtain ⟨st, h1, hr⟩ := from_sparse hs hf hl files w
  obtain ⟨s1, m1, h2, hr1, hv1⟩ := cycles_sparse hs hf hn g k _ st hr
  obtain ⟨s2, h3, hr2, hfile⟩ := cycle_sparse hs hf hn hr1 g
  have e1 : ∀ i, px m1 i = px (e.own s) i := by
    intro i
    rw [hv1, (phaseSparse_ok hf hl).2, hfac, one_pow, mul_one, mul_one]
  refine ⟨st, s2, h1, ?_, ?_, m1, hfile, e1⟩
  · rw [List.replicate_succ', List.flatten_append, run_append, h2, Res.bind_ok]
    simpa using h3
  · intro i
    simp only [pixel, hs, if_true]
    rw [hr2.mem, ← px_val, (phaseSparse_ok hf hr1.len).2, hfac, mul_one, e1]

/-- With a phased exposure map every cycle multiplies a sparse map by it once more. -/
theorem C98_sparse_phased_violates {f : Image} (hs : e.sparse = true) (hp : e.phase = some f)
    (hf : f.length = e.ne * e.npix) (hn : 0 < e.ne * e.npix)
    (hl : (e.own s).length = e.ne * e.npix) (files : Nat → Option Image) (w : Option Image) (g k : Nat) :
    ∃ st st', fromSource e files s false w = .ok st ∧
      run e st (List.replicate k (cycle g)).flatten = .ok st' ∧
      (∀ i, pixel e st i = .ok (px (e.own s) i * px f i)) ∧
      ∀ i, pixel e st' i = .ok (px (e.own s) i * px f i ^ (k + 1)) := by
  have hf' : ∀ f', e.phase = some f' → f'.length = e.ne * e.npix := by
    intro f' h
    rw [hp] at h
    cases h
    exact hf
  have hfac : ∀ i, factor e i = px f i := fun i => by simp [factor, hp]
  obtain ⟨st, h1, hr⟩ := from_sparse hs hf' hl files w
  obtain ⟨s1, m1, h2, hr1, hv1⟩ := cycles_sparse hs hf' hn g k _ st hr
  refine ⟨st, s1, h1, h2, fun i => ?_, fun i => ?_⟩
  · simp only [pixel, hs, if_true]
    rw [hr.mem, ← px_val, (phaseSparse_ok hf' hl).2, hfac]
  · simp only [pixel, hs, if_true]
    rw [hr1.mem, ← px_val, hv1, (phaseSparse_ok hf' hl).2, hfac]
    congr 1
    ring

/-- One plane of two pixels, of which one is empty; the exposure is a half. -/
example : ∃ (e : Env), e.sparse = true ∧ e.phase = some [(1 : ℝ) / 2, 1 / 2] ∧ 0 < e.ne * e.npix ∧
    (e.own 0).length = e.ne * e.npix ∧ px (e.own 0) 0 * px [(1 : ℝ) / 2, 1 / 2] 0 ^ (2 + 1) = 1 :=
  ⟨⟨2, 1, true, fun _ => [8, 0], some [1 / 2, 1 / 2]⟩, rfl, rfl, by norm_num, by norm_num, by norm_num [px]⟩

end

end Verif.SrcMap
