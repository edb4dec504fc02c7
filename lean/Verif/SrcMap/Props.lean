import Verif.SrcMap.Lemmas
import Mathlib.Tactic.Ring
import Mathlib.Tactic.NormNum
/-
C98: the image of a source map survives being dropped, read back, weighted and written.
C99: the summed counts of a source map are those of its image.
-/
set_option linter.unusedSectionVars false
set_option linter.unusedSimpArgs false
set_option linter.unusedVariables false
namespace Verif.SrcMap
open Verif Verif.Vec Spec

/-! ### C98 -/

section
variable {e : Env} {s : Nat} {ops : List Op}

theorem outcome (hs : e.sparse = false) (hp : e.phase = none) (hn : 0 < e.ne * e.npix)
    {img : Image} {st : St} (hi : Inv2 e s false img st)
    (ho : Ordinary s (e.ne * e.npix) false ops) :
    ∃ st' st1 st2, run e st ops = .ok st' ∧
      model e st' false = .ok st1 ∧ st1.model = latest img ops ∧
      npreds e st' false = .ok st2 ∧
      Sums e.npix e.ne st2.weights (latest img ops) st2.npreds st2.wnpreds := by
  obtain ⟨st', c', h, i⟩ := steps_ok hs hp hn hi ho
  obtain ⟨s1, h1, _, m1⟩ := model_ok hs hp hn i
  obtain ⟨s2, h2, _, n2, w2⟩ := npreds_ok hs hp hn i false
  exact ⟨st', s1, s2, h, h1, m1, h2, by rw [n2, w2]; exact sums_planes e _ _⟩

/-- A map computed from its source.  After any ordinary use nothing has failed, the map
gives the image set last, or the computed one, and its counts are those of that image. -/
theorem C98_computed_map_partial (hs : e.sparse = false) (hp : e.phase = none)
    (hn : 0 < e.ne * e.npix) (hl : (e.own s).length = e.ne * e.npix)
    (files : Nat → Option Image) (sv : Bool) (w : Option Image)
    (ho : Ordinary s (e.ne * e.npix) false ops) :
    ∃ st st' st1 st2, fromSource e files s sv w = .ok st ∧ run e st ops = .ok st' ∧
      model e st' false = .ok st1 ∧ st1.model = latest (e.own s) ops ∧
      npreds e st' false = .ok st2 ∧
      Sums e.npix e.ne st2.weights (latest (e.own s) ops) st2.npreds st2.wnpreds := by
  obtain ⟨st, h, i, _⟩ := start_source (s := s) hs hp hn hl files sv w
  obtain ⟨st', s1, s2, r⟩ := outcome hs hp hn i ho
  exact ⟨st, st', s1, s2, h, r⟩

/-- The same for a map read from a file. -/
theorem C98_read_map_partial (hs : e.sparse = false) (hp : e.phase = none)
    (hn : 0 < e.ne * e.npix) {files : Nat → Option Image} {f : Nat} {img : Image}
    (hf : files f = some img) (hl : img.length = e.ne * e.npix) (sv : Bool) (w : Option Image)
    (ho : Ordinary s (e.ne * e.npix) false ops) :
    ∃ st st' st1 st2, fromFile e files f s sv w = .ok st ∧ run e st ops = .ok st' ∧
      model e st' false = .ok st1 ∧ st1.model = latest img ops ∧
      npreds e st' false = .ok st2 ∧
      Sums e.npix e.ne st2.weights (latest img ops) st2.npreds st2.wnpreds := by
  obtain ⟨st, h, i, _⟩ := start_file (s := s) hs hp hn hf hl sv w
  obtain ⟨st', s1, s2, r⟩ := outcome hs hp hn i ho
  exact ⟨st, st', s1, s2, h, r⟩

/-- A map of two planes of one pixel: used, written, dropped, read back, given a new
image, written elsewhere, dropped, weighted. -/
example : Ordinary 0 2 false [.npreds false, .saveMap 7 true true, .clear false, .model false,
    .clear false, .reload, .setImage [3, 4], .saveMap 8 false true, .clear false,
    .setWeights (some [1, 2]), .setSource 0] ∧
    latest [1, 1] [.npreds false, .saveMap 7 true true, .clear false, .model false,
      .clear false, .reload, .setImage [3, 4], .saveMap 8 false true, .clear false,
      .setWeights (some [1, 2]), .setSource 0] = [3, 4] := by
  refine ⟨?_, rfl⟩
  simp [Ordinary]

end

theorem run_append (e : Env) : ∀ (a b : List Op) (st : St),
    run e st (a ++ b) = (run e st a >>= fun st => run e st b)
  | [], b, st => rfl
  | o :: os, b, st => by
    show (step e st o >>= fun st => run e st (os ++ b)) = ((step e st o >>= fun st => run e st os) >>= _)
    cases step e st o with
    | ok s1 => exact run_append e os b s1
    | throws => rfl
    | ub => rfl

/-- Write the map to file `g`, drop it, read it back. -/
def cycle (g : Nat) : List Op := [.saveMap g true true, .clear false, .reload]

/-- What the cycle needs of a state. -/
structure Ready (e : Env) (s : Nat) (m : Image) (st : St) : Prop where
  src : st.src = s
  loaded : st.loaded = true
  save : st.save = false
  sp : st.sp = []
  mem : st.model = m
  len : m.length = e.ne * e.npix

section
variable {e : Env} {s : Nat} {m f : Image} {st : St}

theorem phase_some (hs : e.sparse = false) (hp : e.phase = some f) (hf : f.length = e.ne * e.npix)
    (hl : st.model.length = e.ne * e.npix) :
    applyPhase e st = .ok { st with model := List.zipWith (· * ·) st.model f } := by
  unfold applyPhase phaseFull
  rw [if_neg (by simp [hs]), hp]
  simp only
  rw [if_neg (by omega), List.drop_of_length_le (by omega), List.append_nil]
  rfl

theorem cycle_ok (hs : e.sparse = false) (hp : e.phase = some f) (hf : f.length = e.ne * e.npix)
    (hn : 0 < e.ne * e.npix) (hi : Ready e s m st) (g : Nat) :
    ∃ st', run e st (cycle g) = .ok st' ∧ Ready e s (List.zipWith (· * ·) m f) st' := by
  have hne : m ≠ [] := by
    intro h; have := hi.len; rw [h, List.length_nil] at this; omega
  have hm : st.model ≠ [] := by rw [hi.mem]; exact hne
  have h1 : setSource e st st.src = .ok st := by
    unfold setSource
    rw [if_pos rfl, if_neg (by simp [hi.loaded, hm])]
  have h2 : writeMap e st g true = .ok { st with
      fname := some g, loc := false
      files := fun h => if h = g then some m else st.files h } := by
    unfold writeMap
    rw [h1, Res.bind_ok, if_neg (by simp [hm]), Res.bind_ok]
    simp only [if_true, written, hs, Bool.false_eq_true, if_false, hi.mem]
  have h3 : saveMap e st g true true = .ok { st with
      fname := some g, loc := false
      files := fun h => if h = g then some m else st.files h } := by
    unfold saveMap
    by_cases h : (st.files g).isSome = true
    · rw [if_pos h, if_pos rfl, h2]
    · rw [if_neg h, h2]
  have hz : (List.zipWith (· * ·) m f).length = e.ne * e.npix := by
    rw [List.length_zipWith, hi.len, hf, Nat.min_self]
  unfold cycle
  simp only [run, step, h3, Res.bind_ok, clear, hi.save]
  simp only [Bool.false_eq_true, false_or, and_self, if_true, reload]
  rw [rom_some rfl]
  unfold readModel
  simp only [if_true, hs, Bool.false_eq_true, if_false]
  rw [phase_some hs hp hf (by simp only; exact hi.len), Res.bind_ok,
    counts_full hs (cur := List.zipWith (· * ·) m f) rfl hz hn]
  exact ⟨_, rfl, ⟨hi.src, rfl, rfl, rfl, rfl, hz⟩⟩

theorem cycles_ok (hs : e.sparse = false) (hp : e.phase = some f) (hf : f.length = e.ne * e.npix)
    (hn : 0 < e.ne * e.npix) (g : Nat) : ∀ (k : Nat) (m : Image) (st : St), Ready e s m st →
    ∃ st' m', run e st (List.replicate k (cycle g)).flatten = .ok st' ∧ Ready e s m' st' ∧
      ∀ i, px m' i = px m i * px f i ^ k
  | 0, m, st, hi => ⟨st, m, rfl, hi, fun i => by simp⟩
  | k + 1, m, st, hi => by
    obtain ⟨s1, h1, i1⟩ := cycle_ok hs hp hf hn hi g
    obtain ⟨s2, m2, h2, i2, h⟩ := cycles_ok hs hp hf hn g k _ _ i1
    refine ⟨s2, m2, ?_, i2, fun i => ?_⟩
    · rw [List.replicate_succ, List.flatten_cons, run_append, h1, Res.bind_ok, h2]
    · rw [h, px_val, val_zipWith, ← px_val, ← px_val]; ring

/-- With a phased exposure map every write-drop-read cycle multiplies the map by it once
more: after `k` cycles the pixels are those of the source times the `(k+1)`-st power.  So
the map that comes back is not the map that was written. -/
theorem C98_phased_cycles_violates (hs : e.sparse = false) (hp : e.phase = some f)
    (hf : f.length = e.ne * e.npix) (hn : 0 < e.ne * e.npix)
    (hl : (e.own s).length = e.ne * e.npix) (files : Nat → Option Image) (w : Option Image)
    (g k : Nat) :
    ∃ st st', fromSource e files s false w = .ok st ∧
      run e st (List.replicate k (cycle g)).flatten = .ok st' ∧
      (∀ i, px st.model i = px (e.own s) i * px f i) ∧
      ∀ i, px st'.model i = px (e.own s) i * px f i ^ (k + 1) := by
  have hz : (List.zipWith (· * ·) (e.own s) f).length = e.ne * e.npix := by
    rw [List.length_zipWith, hl, hf, Nat.min_self]
  obtain ⟨st, hst, hr⟩ : ∃ st, fromSource e files s false w = .ok st ∧
      Ready e s (List.zipWith (· * ·) (e.own s) f) st := by
    unfold fromSource makeModel
    simp only [hs, Bool.false_eq_true, if_false]
    rw [phase_some hs hp hf (by simp only; exact hl), Res.bind_ok,
      counts_full hs (cur := List.zipWith (· * ·) (e.own s) f) rfl hz hn]
    exact ⟨_, rfl, ⟨rfl, rfl, rfl, rfl, rfl, hz⟩⟩
  obtain ⟨st', m', h, i, hk⟩ := cycles_ok hs hp hf hn g k _ st hr
  refine ⟨st, st', hst, h, fun i => ?_, fun i' => ?_⟩
  · rw [hr.mem, px_val, val_zipWith]; rfl
  · rw [i.mem, hk, px_val, val_zipWith, px_val, px_val]; ring

/-- With exposure `1/2` a pixel of 8 becomes 4, and 1 after two cycles. -/
example : ∃ (e : Env), e.sparse = false ∧ e.phase = some [(1 : ℝ) / 2] ∧ 0 < e.ne * e.npix ∧
    (e.own 0).length = e.ne * e.npix ∧ px (e.own 0) 0 * px [(1 : ℝ) / 2] 0 ^ (2 + 1) = 1 :=
  ⟨⟨1, 1, false, fun _ => [8], some [1 / 2]⟩, rfl, rfl, by norm_num, by norm_num, by norm_num [px]⟩

end

section
variable {e : Env} {s : Nat} {A B : Image}

/-- An image given while the map is dropped from memory is lost at the next
`setSaveModel(true)`: the old map is read again over it. -/
theorem C98_image_lost_violates (hs : e.sparse = false) (hp : e.phase = none)
    (hn : 0 < e.ne * e.npix) {files : Nat → Option Image} {f : Nat} (hf : files f = some A)
    (hA : A.length = e.ne * e.npix) (hB : B.length = e.ne * e.npix) (w : Option Image) :
    latest A [.clear false, .setImage B, .setSave true] = B ∧
    ∃ st, fromFile e files f s false w = .ok st ∧
      ∃ st', run e st [.clear false, .setImage B, .setSave true] = .ok st' ∧ st'.model = A := by
  obtain ⟨st, h, i, hfl, hfn, hsv, hlc, hm, _⟩ := start_file (s := s) hs hp hn hf hA false w
  refine ⟨rfl, st, h, ?_⟩
  have hf' : st.files f = some A := by rw [hfl]; exact hf
  simp only [run, step, clear, Res.bind_ok, hsv, hlc, or_true, and_self, if_true]
  rw [image_full hs hp hn hB (Or.inl rfl), Res.bind_ok]
  simp only [setSave, if_true, reload]
  rw [rom_some (f := f), read_ok (cur := A) (f := f) hs hp hn hA]
  · exact ⟨_, rfl, rfl⟩
  · exact hf'
  · exact hfn

/-- When writing the map fails, the map still counts as written: it can be dropped, and
the image that is in the file comes back, not the one the user had set. -/
theorem C98_failed_write_violates (hs : e.sparse = false) (hp : e.phase = none)
    (hn : 0 < e.ne * e.npix) {files : Nat → Option Image} {f : Nat} (hf : files f = some A)
    (hA : A.length = e.ne * e.npix) (hB : B.length = e.ne * e.npix) (w : Option Image) :
    latest A [.setImage B, .saveMap f true false, .clear false, .model false] = B ∧
    ∃ st, fromFile e files f s false w = .ok st ∧
      ∃ st', run e st [.setImage B, .saveMap f true false, .clear false, .model false] = .ok st' ∧
        st'.model = A := by
  obtain ⟨st, h, i, hfl, hfn, hsv, hlc, hm, _⟩ := start_file (s := s) hs hp hn hf hA false w
  refine ⟨rfl, st, h, ?_⟩
  have hf' : st.files f = some A := by rw [hfl]; exact hf
  have hneB : B ≠ [] := by
    intro h; rw [h, List.length_nil] at hB; omega
  simp only [run, step]
  rw [image_full hs hp hn hB (Or.inr (by rw [hm, hA])), Res.bind_ok]
  simp only [saveMap, hf', Option.isSome_some, if_true, writeMap, setSource, i.loaded, hneB,
    Bool.true_eq_false, false_and, and_false, or_self, if_false, Res.bind_ok,
    Bool.false_eq_true, clear, hsv, and_self, or_true, model, true_or]
  rw [remake_some (cur := A) (f := f), read_ok (cur := A) (f := f) hs hp hn hA]
  · exact ⟨_, rfl, rfl⟩
  · exact hf'
  · rfl
  · exact hf'

/-- Dropping the map by force, as the option `delete_local_fixed` does for the maps of
fixed sources, loses an image that was set: the computed map comes back. -/
theorem C98_forced_drop_violates (hs : e.sparse = false) (hp : e.phase = none)
    (hn : 0 < e.ne * e.npix) (hA : (e.own s).length = e.ne * e.npix)
    (hB : B.length = e.ne * e.npix) (files : Nat → Option Image) (sv : Bool) (w : Option Image) :
    latest (e.own s) [.setImage B, .clear true, .reload] = B ∧
    ∃ st, fromSource e files s sv w = .ok st ∧
      ∃ st', run e st [.setImage B, .clear true, .reload] = .ok st' ∧ st'.model = e.own s := by
  obtain ⟨st, h, i, hfl, hfn, hsv, hlc, hm, _⟩ := start_source (s := s) hs hp hn hA files sv w
  refine ⟨rfl, st, h, ?_⟩
  simp only [run, step]
  rw [image_full hs hp hn hB (Or.inr (by rw [hm, hA])), Res.bind_ok]
  simp only [clear, true_or, if_true, Res.bind_ok, reload]
  rw [rom_none, make_ok (s := s) (cur := e.own s) hs hp hn hA]
  · exact ⟨_, rfl, rfl⟩
  · exact i.src
  · rfl
  · exact hfn

/-- A map handed to another source keeps the image of the first one, in whatever way it
is asked for without force. -/
theorem C98_other_source_violates (hs : e.sparse = false) (hp : e.phase = none)
    (hn : 0 < e.ne * e.npix) (hA : (e.own s).length = e.ne * e.npix) {t : Nat} (ht : s ≠ t)
    (files : Nat → Option Image) (sv : Bool) (w : Option Image) :
    ∃ st, fromSource e files s sv w = .ok st ∧
      ∃ st', run e st [.setSource t, .npreds false, .model false] = .ok st' ∧
        st'.src = t ∧ st'.model = e.own s := by
  obtain ⟨st, h, i, hfl, hfn, hsv, hlc, hm, _⟩ := start_source (s := s) hs hp hn hA files sv w
  refine ⟨st, h, ?_⟩
  have hneA : e.own s ≠ [] := by
    intro h; rw [h, List.length_nil] at hA; omega
  simp only [run, step, setSource, i.src, ht, if_false, Res.bind_ok, resetData, npreds, true_or,
    if_true, computeNpreds]
  rw [if_neg (by rw [hm]; simp [hneA]), counts_full (cur := e.own s) hs ?_ hA hn, Res.bind_ok]
  · simp only [model, hm, hneA, Bool.false_eq_true, or_self, if_false]
    exact ⟨_, rfl, rfl, rfl⟩
  · exact hm

/-- An image of the wrong size is refused while the map is in memory, but accepted when
the map has been dropped. -/
theorem C98_wrong_size_violates (hs : e.sparse = false) (hp : e.phase = none)
    (hn : 0 < e.ne * e.npix) {files : Nat → Option Image} {f : Nat} (hf : files f = some A)
    (hA : A.length = e.ne * e.npix) (hB : e.ne * e.npix < B.length) (w : Option Image) :
    ∃ st, fromFile e files f s false w = .ok st ∧ run e st [.setImage B] = .throws ∧
      ∃ st', run e st [.clear false, .setImage B] = .ok st' ∧ st'.model = B := by
  obtain ⟨st, h, i, hfl, hfn, hsv, hlc, hm, _⟩ := start_file (s := s) hs hp hn hf hA false w
  have hneA : A ≠ [] := by
    intro h; rw [h, List.length_nil] at hA; omega
  have hneB : B ≠ [] := by
    intro h; rw [h, List.length_nil] at hB; omega
  refine ⟨st, h, ?_, ?_⟩
  · simp only [run, step, setImage]
    rw [if_pos ⟨by rw [hm, hA]; omega, by rw [hm]; exact hneA⟩]
    rfl
  · simp only [run, step, clear, Res.bind_ok, hsv, hlc, or_true, and_self, if_true, setImage]
    rw [if_neg (by simp), applyPhase_none hs hp, Res.bind_ok]
    unfold computeNpreds counts
    rw [if_neg (by rintro ⟨_, h⟩; exact hneB h), if_neg (by simp [hs]),
      if_neg (by rintro (h | h) <;> simp only at h <;> [omega; exact hneB h])]
    exact ⟨_, rfl, rfl⟩

/-- An image given to a sparse map is not used: the pixels stay those of the source, while
the counts are those of the image. -/
theorem C98_sparse_image_violates (hs : e.sparse = true) (hp : e.phase = none)
    (hn : 0 < e.ne * e.npix) (hB : B.length = e.ne * e.npix)
    (files : Nat → Option Image) (sv : Bool) (w : Option Image) :
    ∃ st, fromSource e files s sv w = .ok st ∧
      ∃ st', run e st [.setImage B] = .ok st' ∧
        (∀ i, pixel e st' i = .ok (px (e.own s) i)) ∧
        Sums e.npix e.ne w B st'.npreds st'.wnpreds := by
  have hneB : B ≠ [] := by
    intro h; rw [h, List.length_nil] at hB; omega
  have h : fromSource e files s sv w = .ok { blank files s sv w with
      sp := e.own s, loaded := true
      npreds := planeSums e (e.own s), wnpreds := weightSums e w (e.own s) } := by
    simp only [fromSource, makeModel, hs, if_true, applyPhase, phaseSparse, hp, blank, Res.bind_ok,
      counts, and_self]
  refine ⟨_, h, ?_⟩
  simp only [run, step]
  unfold setImage
  rw [if_neg (by simp [blank])]
  simp only [blank, applyPhase, hs, if_true, phaseSparse, hp, Res.bind_ok]
  unfold computeNpreds counts
  rw [if_neg (by simp [hs]), if_neg (by rintro ⟨_, h⟩; exact hneB h),
    if_neg (by rintro (h | h) <;> simp only at h <;> [omega; exact hneB h])]
  exact ⟨_, rfl, fun i => by simp only [pixel, hs, if_true]; rfl, sums_planes e w B⟩

end

/-- The cases the theorems above need: one plane of two pixels, two different images. -/
example : ∃ (e : Env) (A B : Image), e.sparse = false ∧ e.phase = none ∧ 0 < e.ne * e.npix ∧
    (e.own 0).length = e.ne * e.npix ∧ A.length = e.ne * e.npix ∧ B.length = e.ne * e.npix ∧ A ≠ B :=
  ⟨⟨2, 1, false, fun _ => [1, 2], none⟩, [1, 2], [3, 4], rfl, rfl, by norm_num, rfl, rfl, rfl, by
    norm_num⟩

/-! ### C99 -/

/-- For every sequence of calls, forced or not, with any source, any images and weights,
with or without a phased exposure map: once a full map is in memory, its counts are the
sums of the image it gives, with the weights it has. -/
theorem C99_counts_of_full_maps {e : Env} (hs : e.sparse = false) {files : Nat → Option Image}
    {s : Nat} {sv : Bool} {w : Option Image} {st st' st1 st2 : St} {ops : List Op}
    (h0 : fromSource e files s sv w = .ok st ∨ ∃ f, fromFile e files f s sv w = .ok st)
    (h : run e st ops = .ok st') (h1 : model e st' false = .ok st1)
    (h2 : npreds e st1 false = .ok st2) :
    st2.model = st1.model ∧ st2.model ≠ [] ∧
      Sums e.npix e.ne st2.weights st2.model st2.npreds st2.wnpreds := by
  have i0 : Inv1 e st := by
    rcases h0 with h0 | ⟨f, h0⟩
    · exact source_start hs h0
    · exact file_start hs h0
  have i1 := run_inv (Inv1 e) (fun _ => True) (fun _ _ _ _ hi hx => step_inv1 hs hi hx)
    (fun _ _ => trivial) i0 h
  obtain ⟨i2, n2⟩ := model_inv1 hs i1 h1
  unfold npreds at h2
  by_cases hc : st1.npreds = [] ∨ false = true
  · rw [if_pos hc] at h2
    obtain ⟨a, b, c, d⟩ := computed hs h2
    exact ⟨d n2, c, by rw [a, b]; exact sums_planes e _ _⟩
  · rw [if_neg hc] at h2
    cases h2
    refine ⟨rfl, n2, ?_⟩
    rcases i2 n2 with h | h
    · exact absurd (Or.inl h.1) hc
    · rw [h.1, h.2]; exact sums_planes e _ _

/-- A sparse map that has been dropped from memory: new weights make its counts zero,
whatever the source. -/
theorem C99_sparse_weights_violates {e : Env} (hs : e.sparse = true) (hp : e.phase = none)
    (files : Nat → Option Image) (s : Nat) (sv : Bool) (w w' : Option Image) :
    ∃ st, fromSource e files s sv w = .ok st ∧
      ∃ st', run e st [.clear true, .setWeights w', .npreds false] = .ok st' ∧
        (∀ k, px st'.npreds k = 0) ∧ (∀ k, px st'.wnpreds k = 0) ∧
        ∃ st1, run e st [.clear true, .setWeights w', .model false] = .ok st1 ∧
          Sums e.npix e.ne w' (e.own s) st1.npreds st1.wnpreds := by
  have h : fromSource e files s sv w = .ok { blank files s sv w with
      sp := e.own s, loaded := true
      npreds := planeSums e (e.own s), wnpreds := weightSums e w (e.own s) } := by
    simp only [fromSource, makeModel, hs, if_true, applyPhase, phaseSparse, hp, blank, Res.bind_ok,
      counts, and_self]
  have hz : ∀ k, px (planeSums e []) k = 0 := by
    intro k
    by_cases hk : k < e.ne
    · rw [((sums_planes e none []).2.2 k hk).1]; simp [planeSum, px]
    · rw [px_val, val_ge (by simp [planeSums]; omega)]
  have hw : ∀ k, px (weightSums e w' []) k = 0 := by
    intro k
    by_cases hk : k < e.ne
    · rw [((sums_planes e w' []).2.2 k hk).2]; simp [weightedSum, px]
    · rw [px_val, val_ge (by simp [weightSums]; omega)]
  have hc : ∀ st : St, st.model = [] → computeNpreds e st = .ok { st with
      npreds := planeSums e st.sp, wnpreds := weightSums e st.weights st.sp } := by
    intro st hm
    unfold computeNpreds counts
    rw [if_neg (by simp [hs]), if_pos ⟨hs, hm⟩]
  refine ⟨_, h, ?_⟩
  simp only [run, step, clear, true_or, if_true, Res.bind_ok, setWeights, blank]
  rw [hc _ rfl, Res.bind_ok, Res.bind_ok]
  refine ⟨{ blank files s sv w with
      sp := [], loaded := true, loc := false, cleared := true, weights := w'
      npreds := planeSums e [], wnpreds := weightSums e w' [] }, ?_, hz, hw, ?_⟩
  · unfold npreds
    by_cases hx : planeSums e [] = [] ∨ false = true
    · rw [if_pos hx, hc _ rfl]; rfl
    · rw [if_neg hx]; rfl
  · simp only [model, true_or, if_true]
    rw [remake_none rfl]
    simp only [makeModel, hs, if_true, applyPhase, phaseSparse, hp, Res.bind_ok, counts, and_self]
    exact ⟨_, rfl, sums_planes e w' _⟩

/-- A sparse map with one pixel that is not zero, and a history of C99 with everything
forced. -/
example : ∃ e : Env, e.sparse = true ∧ e.phase = none ∧ planeSum e.npix (e.own 0) 0 = 5 :=
  ⟨⟨1, 1, true, fun _ => [5], none⟩, rfl, rfl, by simp [planeSum, px]⟩

example : ∃ e : Env, e.sparse = false ∧ ∃ st, fromSource e (fun _ => none) 0 true none = .ok st ∧
    ∃ st', run e st [.setWeights (some [2]), .setImage [7], .clear true, .setSource 1, .model true]
      = .ok st' := by
  refine ⟨⟨1, 1, false, fun k => [k], none⟩, rfl, ?_⟩
  obtain ⟨st, h, i, _, hf, _, _, hm, _⟩ := start_source
    (e := ⟨1, 1, false, fun k => [k], none⟩) (s := 0) rfl rfl (by norm_num) rfl (fun _ => none) true none
  refine ⟨st, h, ?_⟩
  simp [run, step, setWeights, computeNpreds, counts, setImage, applyPhase, phaseFull, clear,
    setSource, resetData, model, remake, makeModel, i.src, hf, hm]

end Verif.SrcMap
