import Verif.MapFile.Lemmas2
set_option linter.unusedSectionVars false
set_option linter.unusedSimpArgs false
set_option linter.unusedVariables false
/-
Properties of source maps in files.
-/
namespace Verif.MapFile
open Verif Spec

variable {φ ν ι π : Type} [DecidableEq φ] [DecidableEq ν]
variable {e : Env φ ν ι π} {files : φ → Option (File ν ι π)} {cur : Option φ} {p : π}

theorem image_rel {w : World φ ν ι π} {st : St φ ν ι π} (hp : e.computePoint = true) (h : Rel w st) (n : ν) :
    image e st n = .ok (some (w.image e n)) := by
  obtain ⟨x, h1, h2, _⟩ := use_ok (n := n) hp h
  unfold image
  rw [h1]
  simp only [Res.bind_ok, h2]

/-- However maps are used, replaced, dropped from memory, loaded again and saved, in named files and
for fewer than 500 sources, the image of every source and the contents of every file are what the
user expects.  Partial: the calls of `Spec.Good`. -/
theorem C135_images_partial (hp : e.computePoint = true) {ops : List (Op φ ν ι π)}
    (hg : AllGood e ⟨cur, files, fun _ => none, p⟩ ops) :
    ∃ st, run e (start files cur p) ops = .ok st ∧
      st.files = (World.run e ⟨cur, files, fun _ => none, p⟩ ops).files ∧
      st.cur = (World.run e ⟨cur, files, fun _ => none, p⟩ ops).cur ∧
      ∀ n, image e st n = .ok (some ((World.run e ⟨cur, files, fun _ => none, p⟩ ops).image e n)) := by
  obtain ⟨st, h1, h2⟩ := run_ok hp ops _ _ (start_rel files cur p) hg
  exact ⟨st, h1, h2.files, h2.cur, image_rel hp h2⟩

/-- The contents of a file after saving. -/
def savedFile (e : Env φ ν ι π) (w : World φ ν ι π) (f : φ) (replace counts : Bool) : File ν ι π :=
  { w.content f counts with
    weights := keep replace (w.content f counts).weights e.weights
    map := fun n => if n ∈ e.srcs then keep replace ((w.content f counts).map n) (w.img n)
      else (w.content f counts).map n }

/-- Saving in a named file: the maps in use are in the file afterwards, unless an older one was to be
kept; its other extensions and all other files are as before. -/
theorem C135_saved_partial (hp : e.computePoint = true) {ops : List (Op φ ν ι π)}
    (hg : AllGood e ⟨cur, files, fun _ => none, p⟩ ops) (hn : e.srcs.length < 500) (f : φ) (replace counts : Bool) :
    ∃ st st' F, run e (start files cur p) ops = .ok st ∧ save e st (some f) replace counts = .ok st' ∧
      st'.files f = some F ∧ (∀ g, g ≠ f → st'.files g = st.files g) ∧
      (∀ n ∈ e.srcs, ∀ i, (World.run e ⟨cur, files, fun _ => none, p⟩ ops).img n = some i →
        (replace = true ∨ ∀ G, st.files f = some G → G.map n = none) → F.map n = some i) ∧
      (∀ G, st.files f = some G →
        F.counts = G.counts ∧ F.total = G.total ∧ F.pars = G.pars ∧
        (replace = false → ∀ n i, G.map n = some i → F.map n = some i) ∧
        (∀ n, n ∉ e.srcs ∨ (World.run e ⟨cur, files, fun _ => none, p⟩ ops).img n = none → F.map n = G.map n)) := by
  obtain ⟨st, h1, h2⟩ := run_ok hp ops _ _ (start_rel files cur p) hg
  obtain ⟨st', h3, h4⟩ := save_ok hp hn h2 f replace counts
  have hw : (World.run e ⟨cur, files, fun _ => none, p⟩ ops).step e (.save (some f) replace counts) =
      { World.run e ⟨cur, files, fun _ => none, p⟩ ops with cur := some f }.write f
        (savedFile e (World.run e ⟨cur, files, fun _ => none, p⟩ ops) f replace counts) := rfl
  refine ⟨st, st', savedFile e (World.run e ⟨cur, files, fun _ => none, p⟩ ops) f replace counts, h1, h3, ?_, ?_, ?_, ?_⟩
  · rw [h4.files, hw]
    exact if_pos rfl
  · intro g hgf
    rw [h4.files, h2.files]
    exact if_neg hgf
  · intro n hs i hi hr
    show (if n ∈ e.srcs then keep replace ((World.content _ f counts).map n) (World.img _ n) else _) = _
    rw [if_pos hs, hi]
    unfold keep
    rcases hr with hr | hr
    · rw [hr]; rfl
    · have : ((World.run e ⟨cur, files, fun _ => none, p⟩ ops).content f counts).map n = none := by
        unfold World.content
        rw [← h2.files]
        cases hG : st.files f with
        | none => rfl
        | some G => exact hr G hG
      rw [this]
      cases replace <;> rfl
  · intro G hG
    have hc : (World.run e ⟨cur, files, fun _ => none, p⟩ ops).content f counts = G := by
      unfold World.content
      rw [← h2.files, hG]; rfl
    refine ⟨?_, ?_, ?_, ?_, ?_⟩
    · show (World.content _ f counts).counts = _
      rw [hc]
    · show (World.content _ f counts).total = _
      rw [hc]
    · show (World.content _ f counts).pars = _
      rw [hc]
    · intro hr n i hi
      show (if n ∈ e.srcs then keep replace ((World.content _ f counts).map n) (World.img _ n) else (World.content _ f counts).map n) = _
      rw [hc, hi, hr]
      split
      · unfold keep; split <;> rfl
      · rfl
    · intro n hh
      show (if n ∈ e.srcs then keep replace ((World.content _ f counts).map n) (World.img _ n) else (World.content _ f counts).map n) = _
      rw [hc]
      split
      · rename_i hs
        rcases hh with hh | hh
        · exact absurd hs hh
        · rw [hh]; rfl
      · rfl

/-- A new analysis that is started on the file finds for every source that was in use the image the
old one had. -/
theorem C135_reopened_partial (hp : e.computePoint = true) (hl : e.loadExisting = true) {ops : List (Op φ ν ι π)}
    (hg : AllGood e ⟨cur, files, fun _ => none, p⟩ ops) (hn : e.srcs.length < 500) (f : φ) (counts : Bool) (q : π) :
    ∃ st st', run e (start files cur p) ops = .ok st ∧ save e st (some f) true counts = .ok st' ∧
      ∀ n ∈ e.srcs, (World.run e ⟨cur, files, fun _ => none, p⟩ ops).img n ≠ none →
        image e (start st'.files (some f) q) n = image e st n := by
  obtain ⟨st, st', F, h1, h2, h3, _, h5, _⟩ := C135_saved_partial hp hg hn f true counts
  refine ⟨st, st', h1, h2, fun n hs hi => ?_⟩
  obtain ⟨i, hi⟩ := Option.ne_none_iff_exists'.1 hi
  obtain ⟨st2, e2, _, _, e3⟩ := C135_images_partial (e := e) (files := files) (cur := cur) (p := p) hp hg
  rw [h1] at e2
  cases e2
  rw [e3 n, image_some hi, image_rel hp (start_rel st'.files (some f) q)]
  congr 2
  unfold World.image World.inFile
  simp only [hl, if_true, Option.bind_some, h3, h5 n hs i hi (Or.inl rfl), Option.none_or, Option.getD_some]

/-- Two sources, one file, the images are numbers; the second source gets the image 7 from the user;
it is saved, dropped from memory, read back. -/
def toyEnv : Env Nat Nat Nat Nat :=
  ⟨[0, 1], fun n => if n = 0 then .diffuse else .point, fun n => n = 0, fun n => 10 + n, fun n a b => 100 + n, true, true, false,
    some 5, fun f k => 1000 + k, fun p l => p + l.sum⟩

/-- A history of the toy. -/
def toyOps : List (Op Nat Nat Nat Nat) :=
  [.use 0, .setImage 1 7, .save (some 3) true true, .drop 1 false, .use 1, .saveTotal true, .load 0 true,
    .loadAll false true, .erase 0, .use 0]

/-- The history of the toy is covered. -/
theorem toyOps_good : AllGood toyEnv ⟨none, fun _ => none, fun _ => none, 1⟩ toyOps := by
  refine ⟨trivial, trivial, ⟨?_, ?_⟩, rfl, trivial, ?_, trivial, ?_, trivial, trivial, trivial⟩
  · intro h; cases h
  · decide
  · intro h; cases h
  · intro _ h; cases h

example : ∃ st st', run toyEnv (start (fun _ => none) none 1) toyOps = .ok st ∧
    save toyEnv st (some 4) true false = .ok st' ∧
    image toyEnv st 1 = .ok (some 7) ∧ image toyEnv (start st'.files (some 4) 1) 1 = .ok (some 7) := by
  obtain ⟨st, st', h1, h2, h3⟩ := C135_reopened_partial (e := toyEnv) rfl rfl toyOps_good (by decide) 4 false 1
  obtain ⟨s2, h4, _, _, h5⟩ := C135_images_partial (e := toyEnv) rfl toyOps_good
  rw [h1] at h4
  cases h4
  have h6 : image toyEnv st 1 = .ok (some 7) := h5 1
  refine ⟨st, st', h1, h2, h6, ?_⟩
  rw [h3 1 (by decide) (fun h => by cases h), h6]

theorem saveOne_split {w : World φ ν ι π} {st : St φ ν ι π} (hp : e.computePoint = true) (h : Rel w st) (r : Bool) (n : ν) (out : φ) :
    ∃ w' st', saveOne e r st n out = .ok st' ∧ Rel w' st' ∧ w'.img = w.img ∧ ∀ g, g ≠ out → st'.files g = st.files g := by
  unfold saveOne
  have hw : (st.maps n).isSome = true → ∃ w' st', writeMap e st n out = .ok st' ∧ Rel w' st' ∧ w'.img = w.img ∧
      ∀ g, g ≠ out → st'.files g = st.files g := by
    intro hs
    obtain ⟨s, h1, h2⟩ := writeMap_ok (n := n) hp h out
    refine ⟨_, s, h1, h2, ?_, ?_⟩
    · cases hi : w.img n with
      | none => rw [h.none n hi] at hs; cases hs
      | some i => rw [touch_self hi]; rfl
    · intro g hg
      rw [h2.files, h.files]
      exact if_neg hg
  split
  · rename_i hs
    split
    · split
      · exact hw hs
      · exact ⟨w, st, rfl, h, rfl, fun _ _ => rfl⟩
    · exact hw hs
  · exact ⟨w, st, rfl, h, rfl, fun _ _ => rfl⟩

theorem saveLoop_split (hp : e.computePoint = true) {f : φ} (hs : ∀ k, e.split f k ≠ f) (r : Bool) : ∀ (l : List ν) (i : Nat)
    (s : Nat × φ) (w : World φ ν ι π) (st : St φ ν ι π), Rel w st → (i % 500 = 0 ∨ s.2 ≠ f) →
    ∃ w' st', saveLoop e f true r l i s st = .ok st' ∧ Rel w' st' ∧ w'.img = w.img ∧ st'.files f = st.files f
  | [], i, s, w, st, h, _ => ⟨w, st, rfl, h, rfl, rfl⟩
  | n :: l, i, s, w, st, h, hi => by
    have ho : (outFile e f true i s).2 ≠ f := by
      unfold outFile
      split
      · exact hs _
      · rename_i hh
        rcases hi with hi | hi
        · exact absurd ⟨rfl, hi⟩ hh
        · exact hi
    obtain ⟨w1, s1, h1, h2, h3, h4⟩ := saveOne_split hp h r n (outFile e f true i s).2
    obtain ⟨w2, s2, h5, h6, h7, h8⟩ := saveLoop_split hp hs r l (i + 1) (outFile e f true i s) w1 s1 h2 (Or.inr ho)
    refine ⟨w2, s2, ?_, h6, h7.trans h3, h8.trans (h4 f (Ne.symm ho))⟩
    rw [saveLoop, h1]
    exact h5

/-- With 500 or more sources the maps are put in other, numbered files: an analysis that is started
on the file that was asked for computes every map anew, and a source whose image the user gave has
another one. -/
theorem C135_many_violates (hp : e.computePoint = true) {ops : List (Op φ ν ι π)}
    (hg : AllGood e ⟨cur, files, fun _ => none, p⟩ ops) (hn : 500 ≤ e.srcs.length) {f : φ}
    (hs : ∀ k, e.split f k ≠ f) (hf : (World.run e ⟨cur, files, fun _ => none, p⟩ ops).files f = none)
    (replace counts : Bool) (q : π) :
    ∃ st st', run e (start files cur p) ops = .ok st ∧ save e st (some f) replace counts = .ok st' ∧
      (∀ n, image e (start st'.files (some f) q) n = .ok (some (e.own n))) ∧
      ∀ n i, (World.run e ⟨cur, files, fun _ => none, p⟩ ops).img n = some i → i ≠ e.own n →
        image e (start st'.files (some f) q) n ≠ image e st n := by
  obtain ⟨st, h1, h2⟩ := run_ok hp ops _ _ (start_rel files cur p) hg
  have hfs : st.files f = none := by rw [h2.files]; exact hf
  have h' : Rel ({ World.run e ⟨cur, files, fun _ => none, p⟩ ops with cur := some f }.write f (fresh counts))
      ({ st with cur := some f }.write f (fresh counts)) :=
    write_rel ⟨rfl, h2.files, h2.par, h2.none, h2.here⟩ (fun G hG => by
      have : st.files f = some G := hG
      rw [hfs] at this; cases this)
  obtain ⟨w', s1, h3, h4, h5, h6⟩ := saveLoop_split hp hs replace e.srcs 0 (0, f) _ _ h' (Or.inl rfl)
  have hf1 : s1.files f = some (fresh counts) := by rw [h6]; exact if_pos rfl
  have hsv : save e st (some f) replace counts = .ok (saveWeights e replace s1 f) := by
    unfold save
    simp only [hfs, Option.isSome_none, Bool.false_eq_true, if_false]
    unfold saveRest
    rw [show decide (499 < e.srcs.length) = true from decide_eq_true (by omega), h3]
    rfl
  have hff : ∃ F, (saveWeights e replace s1 f).files f = some F ∧ ∀ n, F.map n = none := by
    have hc : s1.content f = fresh counts := by unfold St.content; rw [hf1]
    unfold saveWeights
    rw [hc]
    split
    · exact ⟨_, hf1, fun _ => rfl⟩
    · split
      · exact ⟨_, hf1, fun _ => rfl⟩
      · exact ⟨_, if_pos rfl, fun _ => rfl⟩
  obtain ⟨F, hF, hm⟩ := hff
  have him : ∀ n, image e (start (saveWeights e replace s1 f).files (some f) q) n = .ok (some (e.own n)) := by
    intro n
    rw [image_rel hp (start_rel _ (some f) q)]
    congr 2
    unfold World.image World.inFile
    simp only [Option.bind_some, hF, hm n, Option.none_or]
    split <;> rfl
  refine ⟨st, _, h1, hsv, him, ?_⟩
  intro n i hi hne heq
  rw [him n, image_rel hp h2, image_some hi] at heq
  injection heq with heq
  injection heq with heq
  exact hne heq.symm

example : ∃ (e : Env Nat Nat Nat Nat) (st st' : St Nat Nat Nat Nat), run e (start (fun _ => none) none 0) [.setImage 3 7] = .ok st ∧
    save e st (some 0) true true = .ok st' ∧ image e (start st'.files (some 0) 0) 3 ≠ image e st 3 := by
  obtain ⟨st, st', h1, h2, _, h4⟩ := C135_many_violates (φ := Nat) (ν := Nat) (ι := Nat) (π := Nat)
    (e := ⟨List.range 500, fun _ => .diffuse, fun _ => false, fun n => n, fun n _ _ => n, true, true, false, none, fun f k => f + k + 1, fun p _ => p⟩)
    (files := fun _ => none) (cur := none) (p := 0) rfl (ops := [.setImage 3 7]) ⟨trivial, trivial⟩
    (by simp only [List.length_range]; omega) (f := 0) (fun k => by simp only; omega) rfl true true 0
  exact ⟨_, st, st', h1, h2, h4 3 7 rfl (by decide)⟩

theorem saveLoop_nothing {f : φ} {many r : Bool} : ∀ (l : List ν) (i : Nat) (s : Nat × φ) (st : St φ ν ι π),
    (∀ n, st.maps n = none) → saveLoop e f many r l i s st = .ok st
  | [], i, s, st, h => rfl
  | n :: l, i, s, st, h => by
    rw [saveLoop]
    have : saveOne e r st n (outFile e f many i s).2 = .ok st := by
      unfold saveOne
      rw [h n]
      rfl
    rw [this]
    exact saveLoop_nothing l (i + 1) _ st h

/-- Saving without a file name creates the file of the analysis anew: a map in the file that was not
loaded yet is lost, and the same analysis then uses another image for its source. -/
theorem C135_unnamed_violates (hp : e.computePoint = true) (hl : e.loadExisting = true) {f : φ} {F : File ν ι π}
    (hf : files f = some F) {n : ν} {i : ι} (hi : F.map n = some i) (hne : i ≠ e.own n) (replace counts : Bool) :
    image e (start files (some f) p) n = .ok (some i) ∧
    ∃ st', run e (start files (some f) p) [.save none replace counts] = .ok st' ∧
      image e st' n = .ok (some (e.own n)) ∧ (∃ G, st'.files f = some G ∧ G.map n = none ∧ G.total = none ∧ G.pars = []) ∧
      image e st' n ≠ .ok (some i) := by
  have h0 := start_rel files (some f) p
  refine ⟨?_, ?_⟩
  · rw [image_rel hp h0]
    congr 2
    unfold World.image World.inFile
    simp only [hl, if_true, Option.bind_some, hf, hi, Option.none_or, Option.getD_some]
  · have hsl := saveLoop_nothing (e := e) (f := f) (many := decide (499 < e.srcs.length)) (r := replace) e.srcs 0 (0, f)
      ((start files (some f) p).write f (fresh counts)) (fun _ => rfl)
    have hrun : run e (start files (some f) p) [.save none replace counts] =
        .ok (saveWeights e replace ((start files (some f) p).write f (fresh counts)) f) := by
      show (do
        let st ← (do
          let st ← saveLoop e f (decide (499 < e.srcs.length)) replace e.srcs 0 (0, f)
            ((start files (some f) p).write f (fresh counts))
          (.ok (saveWeights e replace st f) : Res _))
        (.ok st : Res _)) = _
      rw [hsl]
      rfl
    have hc : ((start files (some f) p).write f (fresh counts)).content f = fresh counts := by
      unfold St.content
      rw [show ((start files (some f) p).write f (fresh counts)).files f = some (fresh counts) from if_pos rfl]
    have hsw : ∃ v : Option ι, saveWeights e replace ((start files (some f) p).write f (fresh counts)) f =
        (start files (some f) p).write f { (fresh counts : File ν ι π) with weights := v } := by
      unfold saveWeights
      rw [hc]
      split
      · exact ⟨none, rfl⟩
      · rename_i v _
        split
        · exact ⟨none, rfl⟩
        · refine ⟨some v, ?_⟩
          unfold St.write
          congr 1
          funext g
          by_cases h : g = f <;> simp [h]
    obtain ⟨v, hv⟩ := hsw
    rw [hrun, hv]
    have hr : Rel ((⟨some f, files, fun _ => none, p⟩ : World φ ν ι π).write f { (fresh counts : File ν ι π) with weights := v })
        ((start files (some f) p).write f { (fresh counts : File ν ι π) with weights := v }) :=
      write_rel h0 (fun _ _ _ _ h _ => by cases h)
    have him := image_rel (e := e) hp hr n
    have hown : ((⟨some f, files, fun _ => none, p⟩ : World φ ν ι π).write f { (fresh counts : File ν ι π) with weights := v }).image e n = e.own n := by
      unfold World.image World.inFile World.write
      simp [hl, fresh, blank]
    rw [hown] at him
    refine ⟨_, rfl, him, ⟨_, if_pos rfl, rfl, rfl, rfl⟩, ?_⟩
    rw [him]
    intro h
    injection h with h
    injection h with h
    exact hne h.symm

example : image toyEnv (start (fun _ => some ⟨true, none, none, [], fun _ => some 7⟩) (some 2) 0) 1 = .ok (some 7) ∧
    ∃ st', run toyEnv (start (fun _ => some ⟨true, none, none, [], fun _ => some 7⟩) (some 2) 0) [.save none true true] = .ok st' ∧
      image toyEnv st' 1 = .ok (some 11) := by
  obtain ⟨h1, st', h2, h3, _⟩ := C135_unnamed_violates (e := toyEnv) (files := fun _ => some ⟨true, none, none, [], fun _ => some 7⟩) (p := 0)
    rfl rfl (f := 2) rfl (n := 1) (i := 7) rfl (by decide) true true
  exact ⟨h1, st', h2, h3⟩

/-- Saving the sum of the fixed sources twice, with replacement: the image is the second one, the
table of parameters that is found under its name is the first one. -/
theorem C135_parameters_violates (hp : e.computePoint = true) {f : φ} (hf : files f = none) (q : π) :
    ∃ st F, run e (start files (some f) p) [.saveTotal true, .setPar q, .saveTotal true] = .ok st ∧ st.files f = some F ∧
      F.total = some (e.total q ((e.srcs.filter e.fixed).map fun n => e.own n)) ∧ F.pars = [p, q] := by
  have hg : AllGood e ⟨some f, files, fun _ => none, p⟩ [.saveTotal true, .setPar q, .saveTotal true] :=
    ⟨(fun h => by cases h), trivial, (fun h => by cases h), trivial⟩
  obtain ⟨st, h1, h2, _⟩ := C135_images_partial (cur := some f) (p := p) hp hg
  have hi0 : ∀ n, World.image e ⟨some f, files, fun _ => none, p⟩ n = e.own n := by
    intro n
    unfold World.image World.inFile
    simp only [Option.bind_some, hf, Option.bind_none, Option.none_or]
    split <;> rfl
  have ht : ∀ w : World φ ν ι π, w.cur = some f → w.step e (.saveTotal true) =
      (w.touch e (e.srcs.filter e.fixed)).write f { w.content f false with
        total := some (e.total w.par ((e.srcs.filter e.fixed).map (w.image e)))
        pars := (w.content f false).pars ++ [w.par] } := by
    intro w hw
    show (match (w.touch e (e.srcs.filter e.fixed)).cur with
      | none => _
      | some f => _) = _
    rw [show (w.touch e (e.srcs.filter e.fixed)).cur = some f from hw]
    simp only
    rw [show (e.srcs.filter e.fixed).map ((w.touch e (e.srcs.filter e.fixed)).image e) = (e.srcs.filter e.fixed).map (w.image e) from
      List.map_congr_left fun n hn => image_some (by unfold World.touch; simp only; rw [if_pos hn])]
    rfl
  have hc : ∀ (w : World φ ν ι π) (X : File ν ι π), (w.write f X).content f false = X := by
    intro w X
    unfold World.content World.write
    simp
  obtain ⟨w1, hw1⟩ : ∃ w1 : World φ ν ι π, w1 = { ((⟨some f, files, fun _ => none, p⟩ : World φ ν ι π).step e (.saveTotal true)) with par := q } :=
    ⟨_, rfl⟩
  have hr : World.run e ⟨some f, files, fun _ => none, p⟩ [.saveTotal true, .setPar q, .saveTotal true] = w1.step e (.saveTotal true) := by
    rw [hw1]; rfl
  rw [ht ⟨some f, files, fun _ => none, p⟩ rfl] at hw1
  have hcur : w1.cur = some f := by rw [hw1]; rfl
  have hpar : w1.par = q := by rw [hw1]
  have hcon : (w1.content f false).pars = [p] := by
    have hff : ∃ X : File ν ι π, w1.files f = some X ∧ X.pars = (World.content ⟨some f, files, fun _ => none, p⟩ f false).pars ++ [p] := by
      rw [hw1]
      exact ⟨_, if_pos rfl, rfl⟩
    obtain ⟨X, hX, hXp⟩ := hff
    have : w1.content f false = X := by unfold World.content; rw [hX]; rfl
    rw [this, hXp]
    unfold World.content
    simp only [hf]
    rfl
  rw [hr, ht w1 hcur] at h2
  refine ⟨st, { w1.content f false with
        total := some (e.total w1.par ((e.srcs.filter e.fixed).map (w1.image e)))
        pars := (w1.content f false).pars ++ [w1.par] }, h1, ?_, ?_, ?_⟩
  · rw [h2]
    exact if_pos rfl
  · simp only
    rw [hpar]
    congr 2
    apply List.map_congr_left
    intro n hn
    apply image_some
    rw [hw1]
    show (if n ∈ e.srcs.filter e.fixed then some _ else _) = _
    rw [if_pos hn, hi0]
  · simp only
    rw [hcon, hpar]
    rfl

example : ∃ st F, run toyEnv (start (fun _ => none) (some 2) 1) [.saveTotal true, .setPar 5, .saveTotal true] = .ok st ∧
    st.files 2 = some F ∧ F.total = some 15 ∧ F.pars = [1, 5] :=
  C135_parameters_violates (e := toyEnv) rfl rfl 5

/-- With `computePointSources` off, the use of a point source that is not in the file dereferences a
null pointer. -/
theorem C135_point_source_violates (hp : e.computePoint = false) {n : ν} (hk : e.kind n = .point)
    (hf : ∀ f F, cur = some f → files f = some F → F.map n = none) (i : ι) :
    run e (start files cur p) [.use n] = .ub ∧ run e (start files cur p) [.setImage n i] = .ub := by
  have hs : (start files cur p : St φ ν ι π).stored cur n = none := by
    unfold St.stored
    cases hc : cur with
    | none => rfl
    | some f =>
      simp only
      cases hF : (start files (some f) p : St φ ν ι π).files f with
      | none => rfl
      | some F => exact hf f F hc hF
  have hn : newMap e (start files cur p) n = none := by
    unfold newMap
    rw [show (start files cur p : St φ ν ι π).cur = cur from rfl, hs]
    simp [hk, hp]
  have hg : getMap e (start files cur p) n = .ok ((start files cur p).put n none, none) := by
    show Res.ok _ = _
    rw [hn]
  refine ⟨?_, ?_⟩
  · simp only [run, step, use, hg, Res.bind_ok, deref, Res.bind_ub]
  · simp only [run, step, setImage, hg, Res.bind_ok, deref, Res.bind_ub]
    rfl

example : run { toyEnv with computePoint := false } (start (fun _ => none) none 0) [.use 1] = .ub :=
  (C135_point_source_violates (e := { toyEnv with computePoint := false }) rfl rfl (fun _ _ h => by cases h) 0).1

/-- Saving a range of planes of the map of a source writes computed planes, not those of the image
the user gave. -/
theorem C135_planes_violates (hp : e.computePoint = true) (n : ν) {i : ι} (f : φ) {a b : Int} (hne : e.part n a b ≠ i) :
    ∃ st F, run e (start files cur p) [.setImage n i, .savePart f n a b true] = .ok st ∧
      image e st n = .ok (some i) ∧ st.files f = some F ∧ F.map n = some (e.part n a b) ∧ F.map n ≠ some i := by
  obtain ⟨s1, h1, h2⟩ := setImage_ok (n := n) (i := i) hp (start_rel files cur p)
  have hm : ∃ x, s1.maps n = some (some x) ∧ x.img = some i ∧ x.loc = true := by
    have h1' := h1
    unfold setImage at h1'
    obtain ⟨x, h3, _⟩ := getMap_ok (n := n) hp (start_rel files cur p)
    simp only [show (start files cur p : St φ ν ι π).maps n = none from rfl, h3, Res.bind_ok, deref] at h1'
    cases h1'
    refine ⟨{ x with img := some i, loc := true }, ?_, rfl, rfl⟩
    unfold St.put
    simp
  obtain ⟨x, hx, hxi, _⟩ := hm
  refine ⟨savePart e s1 f n a b true,
    ({ s1.content f with map := fun m => if m = n then some (e.part n a b) else (s1.content f).map m } : File ν ι π),
    ?_, ?_, ?_, ?_, ?_⟩
  · rw [run]
    simp only [step, h1, Res.bind_ok, run]
  · unfold image use getMap
    have : (savePart e s1 f n a b true).maps n = some (some x) := by
      unfold savePart
      rw [if_neg (by simp)]
      exact hx
    simp only [this]
    unfold setSource
    rw [if_neg (by rw [hxi]; simp)]
    simp only [Res.bind_ok, deref, model, hxi]
  · unfold savePart
    rw [if_neg (by simp)]
    exact if_pos rfl
  · simp
  · simp only [if_true]
    intro h
    injection h with h
    exact hne h

example : ∃ st F, run toyEnv (start (fun _ => none) none 0) [.setImage 1 7, .savePart 4 1 0 3 true] = .ok st ∧
    image toyEnv st 1 = .ok (some 7) ∧ st.files 4 = some F ∧ F.map 1 = some 101 ∧ F.map 1 ≠ some 7 :=
  C135_planes_violates (e := toyEnv) rfl 1 4 (by decide)

end Verif.MapFile
