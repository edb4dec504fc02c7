import Verif.Readd.Lemmas
set_option linter.unusedVariables false
set_option linter.unusedSimpArgs false
set_option linter.unusedDecidableInType false
set_option linter.unusedSectionVars false
/-
C156: the counts of a source are those of a source that is where the source now is, whatever was
added, deleted and moved before.
-/
namespace Verif.Readd

variable {ν σ : Type} [DecidableEq ν] [DecidableEq σ] {c : Cfg}

/-- **C156 (partial).** In a history in which no source is added under a name for which a map of
another place is kept, and no source of which a map is kept moves, every source has the counts of
its place, and the sums of the counts and of the predicted numbers of the fixed sources have every
fixed source once at its place.  What is missing: see the violations below. -/
theorem C156_images_partial {ops : List (Op ν σ)} (hg : AllGood c (World.empty : World ν σ) ops) :
    ∃ st, run c (St.new : St ν σ) ops = .ok st ∧
      (∀ n, image c st n = ((World.empty.run c ops).srcs n).map fun p => (p.1, p.1)) ∧
      (∀ a b, st.counts (a, b) = if a = b then (World.empty.run c ops).sum a else 0) ∧
      ∀ a b, st.npreds (a, b) = if a = b then (World.empty.run c ops).sum a else 0 := by
  obtain ⟨st, h1, h2⟩ := rel_run rel_new hg
  exact ⟨st, h1, rel_image h2, h2.counts, h2.npreds⟩

/-- A history with two sources of which one is replaced after its map was erased. -/
def toyOps : List (Op Nat Nat) :=
  [.add 1 ⟨10, 5, false⟩ none true, .add 2 ⟨11, 6, true⟩ (some 12) true, .use 2, .delete 1, .erase 1, .add 1 ⟨10, 7, false⟩ none true,
    .compute 1, .delete 2]

example : ∃ st, run ⟨false, true, true⟩ (St.new : St Nat Nat) toyOps = .ok st ∧ image ⟨false, true, true⟩ st 1 = some (7, 7) ∧
    st.counts (6, 6) = 0 := by
  have hg : AllGood ⟨false, true, true⟩ (World.empty : World Nat Nat) toyOps := by
    simp [AllGood, toyOps, Good, World.step, World.empty, World.gone, World.draw, World.count, upd]
  obtain ⟨st, h1, h2, h3, _⟩ := C156_images_partial hg
  refine ⟨st, h1, ?_, ?_⟩
  · rw [h2]
    simp [toyOps, World.run, World.step, World.empty, World.gone, World.draw, World.count, upd]
  · rw [h3]
    simp [toyOps, World.run, World.step, World.empty, World.gone, World.draw, World.count, upd]

theorem setSource_img {m : SMap σ} {i : σ × σ} (h : m.img = some i) (s : Src σ) : (setSource c m s).img = some i := by
  unfold setSource
  split
  · rw [if_neg (by rw [h]; simp)]; exact h
  · exact h

theorem image_of_map {st : St ν σ} {n : ν} {s : Src σ} {m : SMap σ} {i : σ × σ} (hs : st.srcs n = some s) (hm : st.maps n = some m)
    (hi : m.img = some i) : image c st n = some i := by
  unfold image use
  simp only [hs, getMap, hm]
  unfold reload
  rw [setSource_img hi s]

/-- **C156 (scan).** Whatever was done before: if a source that is not fixed is removed the way a
scan removes its test source and one is added under its name, it has the counts of its place, and
the counts of the other sources are what they were. -/
theorem C156_replace (st : St ν σ) (n : ν) (t s : Src σ) (k : Option Nat) (hs : st.srcs n = some t) (ht : t.fixed = false)
    (hn : n ∉ st.fixedNames) (hf : s.fixed = false) :
    ∃ st', run c st [.remove n, .add n s k true] = .ok st' ∧ image c st' n = some (s.shape, s.shape) ∧
      (∀ m, m ≠ n → image c st' m = image c st m) ∧ st'.counts = st.counts ∧ st'.npreds = st.npreds := by
  simp only [run, step, removeSource, deleteSource, hs, if_neg hn, Res.bind_ok, ht, Bool.false_eq_true, if_false, addSource, St.putSrc,
    St.putMap, if_true, Option.isSome_none, hf, and_false]
  refine ⟨_, rfl, ?_, fun m hm => ?_, rfl, rfl⟩
  · exact image_of_map (s := stored s k) (m := made s) (by simp) (by simp [getMap]) rfl
  · simp only [image, use, getMap, if_neg hm]
    cases st.srcs m <;> rfl

example : ∃ st', run ⟨false, true, true⟩ (St.new : St Nat Nat) [.add 1 ⟨10, 5, false⟩ none true, .remove 1, .add 1 ⟨10, 7, false⟩ none true] =
    .ok st' ∧ image ⟨false, true, true⟩ st' 1 = some (7, 7) := by
  let s0 : St Nat Nat := { (St.new : St Nat Nat) with
    srcs := fun k => if k = 1 then some ⟨10, 5, false⟩ else none, maps := fun k => if k = 1 then some (made ⟨10, 5, false⟩) else none }
  obtain ⟨st', h1, h2, _⟩ := C156_replace (c := ⟨false, true, true⟩) s0 1 ⟨10, 5, false⟩ ⟨10, 7, false⟩ none rfl rfl
    (by simp [s0, St.new]) rfl
  exact ⟨st', h1, h2⟩

/-- **C156 (violation).** A source is added, deleted, and another one is added under its name: its
counts are those of the place of the first.  (The map of the first stays in the cache, and giving
it another source does not draw it again.) -/
theorem C156_readd_violates (st : St ν σ) (n : ν) (s t : Src σ) (k l : Option Nat) (h1 : st.srcs n = none) (h2 : st.maps n = none)
    (h3 : n ∉ st.fixedNames) (hs : s.fixed = false) (ht : t.fixed = false) (hne : s.shape ≠ t.shape) :
    ∃ st', run c st [.add n s k true, .delete n, .add n t l true] = .ok st' ∧ (∃ u, st'.srcs n = some u ∧ u.shape = t.shape) ∧
      image c st' n = some (s.shape, s.shape) ∧ image c st' n ≠ some (t.shape, t.shape) := by
  have e : ∃ st', run c st [.add n s k true, .delete n, .add n t l true] = .ok st' ∧ (∃ u, st'.srcs n = some u ∧ u.shape = t.shape) ∧
      image c st' n = some (s.shape, s.shape) := by
    simp only [run, step, deleteSource, if_neg h3, Res.bind_ok, Bool.false_eq_true, if_false, addSource, St.putSrc,
      St.putMap, if_true, Option.isSome_none, hs, ht, and_false, h1, getMap, h2]
    refine ⟨_, rfl, ⟨stored t l, if_pos rfl, (stored_shape t l).1⟩, ?_⟩
    exact image_of_map (s := stored t l) (m := setSource c (made s) t) (by simp) (by simp) (setSource_img rfl t)
  obtain ⟨st', g1, g2, g3⟩ := e
  exact ⟨st', g1, g2, g3, fun h => hne (by rw [g3] at h; exact congrArg Prod.fst (Option.some.inj h))⟩

example : ∃ st', run ⟨true, true, false⟩ (St.new : St Nat Nat) [.add 1 ⟨10, 5, false⟩ none true, .delete 1, .add 1 ⟨11, 7, false⟩ none true] =
    .ok st' ∧ image ⟨true, true, false⟩ st' 1 = some (5, 5) := by
  obtain ⟨st', h1, _, h2, _⟩ := C156_readd_violates (c := ⟨true, true, false⟩) (St.new : St Nat Nat) 1 ⟨10, 5, false⟩ ⟨11, 7, false⟩ none none
    rfl rfl (by simp [St.new]) rfl rfl (by simp)
  exact ⟨st', h1, h2⟩

/-- **C156 (violation).** A source in the likelihood that is moved keeps its counts. -/
theorem C156_move_violates (st : St ν σ) (n : ν) (s : Src σ) (k : Option Nat) (d : σ) (h1 : st.srcs n = none) (h2 : st.maps n = none)
    (h3 : n ∉ st.fixedNames) (hs : s.fixed = false) (hne : s.shape ≠ d) :
    ∃ st', run c st [.add n s k true, .move n d] = .ok st' ∧ (∃ u, st'.srcs n = some u ∧ u.shape = d) ∧
      image c st' n = some (s.shape, s.shape) ∧ image c st' n ≠ some (d, d) := by
  have e : ∃ st', run c st [.add n s k true, .move n d] = .ok st' ∧ (∃ u, st'.srcs n = some u ∧ u.shape = d) ∧
      image c st' n = some (s.shape, s.shape) := by
    simp only [run, step, Res.bind_ok, Bool.false_eq_true, if_false, addSource, St.putSrc,
      St.putMap, if_true, Option.isSome_none, hs, and_false, h1, getMap, h2]
    refine ⟨_, rfl, ⟨_, if_pos rfl, rfl⟩, ?_⟩
    exact image_of_map (s := { stored s k with shape := d }) (m := made s) (by simp) (by simp) rfl
  obtain ⟨st', g1, g2, g3⟩ := e
  exact ⟨st', g1, g2, g3, fun h => hne (by rw [g3] at h; exact congrArg Prod.fst (Option.some.inj h))⟩

example : ∃ st', run ⟨true, true, false⟩ (St.new : St Nat Nat) [.add 1 ⟨10, 5, false⟩ (some 11) true, .move 1 7] =
    .ok st' ∧ image ⟨true, true, false⟩ st' 1 = some (5, 5) := by
  obtain ⟨st', h1, _, h2, _⟩ := C156_move_violates (c := ⟨true, true, false⟩) (St.new : St Nat Nat) 1 ⟨10, 5, false⟩ (some 11) 7
    rfl rfl (by simp [St.new]) rfl (by simp)
  exact ⟨st', h1, h2⟩

/-- **C156 (violation).** A scan does not erase the map of a source with fixed spectrum: with
`save_all_srcmaps`, a source that is added after a fixed one was removed has the counts of that
one. -/
theorem C156_remove_violates (st : St ν σ) (n : ν) (s t : Src σ) (k l : Option Nat) (hc : c.saveAll = true) (hg : c.single = true)
    (h1 : st.srcs n = none) (h2 : st.maps n = none)
    (h3 : n ∉ st.fixedNames) (hs : s.fixed = true) (ht : t.fixed = false) (hne : s.shape ≠ t.shape) :
    ∃ st', run c st [.add n s k true, .remove n, .add n t l true] = .ok st' ∧ (∃ u, st'.srcs n = some u ∧ u.shape = t.shape) ∧
      image c st' n = some (s.shape, s.shape) ∧ image c st' n ≠ some (t.shape, t.shape) := by
  have hcl : ∀ m : SMap σ, clear c m = m := fun m => by unfold clear; rw [if_neg (by rw [hc]; simp)]
  have e : ∃ st', run c st [.add n s k true, .remove n, .add n t l true] = .ok st' ∧ (∃ u, st'.srcs n = some u ∧ u.shape = t.shape) ∧
      image c st' n = some (s.shape, s.shape) := by
    obtain ⟨e1, e2⟩ := stored_shape s k
    have g0 : reload (made (stored s k)) (stored s k) = (made (stored s k), (s.shape, s.shape)) := by
      unfold reload made; simp only [e1]
    have g1 : (setSource c (made (stored s k)) (stored s k)).img = some ((stored s k).shape, (stored s k).shape) := setSource_img rfl _
    have g2 : (reload (setSource c (made (stored s k)) (stored s k)) (stored s k)).1 = setSource c (made (stored s k)) (stored s k) := by
      unfold reload; rw [g1]
    simp only [run, step, removeSource, deleteSource, Res.bind_ok, Bool.false_eq_true, if_false, addSource, addFixed, if_neg h3, St.putSrc,
      St.putMap, if_true, Option.isSome_none, hs, ht, hg, and_self, and_false, h1, getMap, h2, hcl, g0, e2, List.mem_append,
      List.mem_singleton, or_true, g2]
    refine ⟨_, rfl, ⟨stored t l, if_pos rfl, (stored_shape t l).1⟩, ?_⟩
    refine image_of_map (s := stored t l) (m := setSource c (setSource c (made (stored s k)) (stored s k)) t) (by simp) (by simp) ?_
    rw [setSource_img g1 t, e1]
  obtain ⟨st', g1, g2, g3⟩ := e
  exact ⟨st', g1, g2, g3, fun h => hne (by rw [g3] at h; exact congrArg Prod.fst (Option.some.inj h))⟩

example : ∃ st', run ⟨true, true, false⟩ (St.new : St Nat Nat) [.add 1 ⟨10, 5, true⟩ (some 11) true, .remove 1, .add 1 ⟨11, 7, false⟩ none true] =
    .ok st' ∧ image ⟨true, true, false⟩ st' 1 = some (5, 5) := by
  obtain ⟨st', h1, _, h2, _⟩ := C156_remove_violates (c := ⟨true, true, false⟩) (St.new : St Nat Nat) 1 ⟨10, 5, true⟩ ⟨11, 7, false⟩ (some 11) none
    rfl rfl rfl rfl (by simp [St.new]) rfl rfl (by simp)
  exact ⟨st', h1, h2⟩

/-- **C156 (violation).** If the source added after the deletion is a fixed one and maps are not
kept, the sum of the counts gets the place of the deleted source and the sum of the predicted
numbers the new place with the PSF of the old one. -/
theorem C156_sums_violates (st : St ν σ) (n : ν) (s t : Src σ) (k l : Option Nat) (hc : c.saveAll = false) (hg : c.single = true)
    (hd : c.dropLocal = true) (h1 : st.srcs n = none) (h2 : st.maps n = none)
    (h3 : n ∉ st.fixedNames) (hs : s.fixed = false) (ht : t.fixed = true) :
    ∃ st', run c st [.add n s k true, .delete n, .add n t l true] = .ok st' ∧ (∃ u, st'.srcs n = some u ∧ u.shape = t.shape) ∧
      st'.counts = bump st.counts (s.shape, s.shape) 1 ∧ st'.npreds = bump st.npreds (t.shape, s.shape) 1 := by
  obtain ⟨e1, e2⟩ := stored_shape t l
  have g1 : (setSource c (made s) (stored t l)).img = some (s.shape, s.shape) := setSource_img rfl _
  have g0 : reload (setSource c (made s) (stored t l)) (stored t l) = (setSource c (made s) (stored t l), (s.shape, s.shape)) := by
    unfold reload; rw [g1]
  have gp : (setSource c (made s) (stored t l)).psf = s.shape := by
    unfold setSource
    split
    · split <;> rfl
    · rfl
  have g2 : (reload (clear c (setSource c (made s) (stored t l))) (stored t l)).2 = (t.shape, s.shape) := by
    unfold clear
    rw [if_pos ⟨hc, Or.inl hd⟩]
    simp only [reload, e1, gp]
  simp only [run, step, deleteSource, Res.bind_ok, Bool.false_eq_true, if_false, addSource, addFixed, if_neg h3, St.putSrc,
    St.putMap, if_true, Option.isSome_none, hs, ht, hg, and_self, and_false, h1, getMap, h2, g0, g2]
  exact ⟨_, rfl, ⟨stored t l, if_pos rfl, e1⟩, rfl, rfl⟩

example : ∃ st', run ⟨false, true, true⟩ (St.new : St Nat Nat) [.add 1 ⟨10, 5, false⟩ none true, .delete 1, .add 1 ⟨11, 7, true⟩ none true] =
    .ok st' ∧ st'.counts (5, 5) = 1 ∧ st'.npreds (7, 5) = 1 ∧ st'.npreds (5, 5) = 0 := by
  obtain ⟨st', h1, _, h2, h3⟩ := C156_sums_violates (c := ⟨false, true, true⟩) (St.new : St Nat Nat) 1 ⟨10, 5, false⟩ ⟨11, 7, true⟩ none none
    rfl rfl rfl rfl rfl (by simp [St.new]) rfl rfl
  exact ⟨st', h1, by rw [h2]; rfl, by rw [h3]; rfl, by rw [h3]; rfl⟩

/-- **C156 (name in use).** Whatever was done before, a source cannot be added under the name of a
source that is there, with or without a map and whether or not it is fixed. -/
theorem C156_name_in_use (st : St ν σ) (n : ν) (s t : Src σ) (k : Option Nat) (b : Bool) (l : List (Op ν σ)) (h : st.srcs n = some t) :
    run c st (.add n s k b :: l) = .throws ∧ run c st (.addNew n s k :: l) = .throws := by
  constructor <;> simp [run, step, addSource, h, Res.bind_throws]

example : run ⟨true, true, false⟩ (St.new : St Nat Nat) [.add 1 ⟨10, 5, false⟩ none true, .addNew 1 ⟨11, 7, true⟩ none] = .throws := by
  let s0 : St Nat Nat := { (St.new : St Nat Nat) with
    srcs := fun k => if k = 1 then some ⟨10, 5, false⟩ else none, maps := fun k => if k = 1 then some (made ⟨10, 5, false⟩) else none }
  exact (C156_name_in_use (c := ⟨true, true, false⟩) s0 1 ⟨11, 7, true⟩ ⟨10, 5, false⟩ none true [] rfl).2

end Verif.Readd
