import Verif.MapFile.Model
import Verif.MapFile.Spec
import Mathlib.Tactic.Common
set_option linter.unusedSectionVars false
set_option linter.unusedSimpArgs false
set_option linter.unusedVariables false
namespace Verif.MapFile
open Verif Spec

variable {φ ν ι π : Type} [DecidableEq φ] [DecidableEq ν]
variable {e : Env φ ν ι π} {w : World φ ν ι π} {st : St φ ν ι π} {n : ν} {i : ι}

/-- The map in memory stands for the image `i`. -/
def Holds (files : φ → Option (File ν ι π)) (n : ν) (i : ι) (x : Entry φ ι) : Prop :=
  (x.img = some i ∨ (x.img = none ∧ x.loc = false)) ∧
  (x.loc = false → ∃ g F, x.fname = some g ∧ files g = some F ∧ F.map n = some i)

/-- The program and the specification agree. -/
structure Rel (w : World φ ν ι π) (st : St φ ν ι π) : Prop where
  cur : st.cur = w.cur
  files : st.files = w.files
  par : st.par = w.par
  none : ∀ n, w.img n = none → st.maps n = none
  here : ∀ n i, w.img n = some i → ∃ x, st.maps n = some (some x) ∧ Holds st.files n i x

theorem stored_eq (h : Rel w st) : st.stored st.cur n = w.inFile n := by
  unfold St.stored World.inFile
  rw [h.cur, h.files]
  cases w.cur with
  | none => rfl
  | some f =>
    simp only [Option.bind_some]
    cases w.files f <;> rfl

theorem content_eq (h : Rel w st) (f : φ) : st.content f = w.content f false := by
  unfold St.content World.content
  rw [h.files]
  cases w.files f <;> rfl

theorem put_put (p q : Option (Entry φ ι)) : (st.put n p).put n q = st.put n q := by
  unfold St.put
  simp only
  congr 1
  funext m
  by_cases h : m = n <;> simp [h]

theorem image_some (h : w.img n = some i) : w.image e n = i := by
  unfold World.image; rw [h]; rfl

theorem image_none (h : w.img n = none) :
    w.image e n = (if e.loadExisting then w.inFile n else none).getD (e.own n) := by
  unfold World.image; rw [h]; rfl

theorem stored_of {g : φ} {F : File ν ι π} (hg : st.files g = some F) : st.stored (some g) n = F.map n := by
  unfold St.stored; simp only [hg]

theorem getMap_ok (hp : e.computePoint = true) (h : Rel w st) :
    ∃ x, getMap e st n = .ok (st.put n (some x), some x) ∧ Holds st.files n (w.image e n) x := by
  cases hi : w.img n with
  | none =>
    have hm := h.none n hi
    rw [image_none hi]
    unfold getMap
    simp only [hm]
    unfold newMap
    rw [stored_eq h]
    cases hf : (if e.loadExisting = true then w.inFile n else none) with
    | none =>
      simp only [hp]
      refine ⟨made e n, ?_, Or.inl rfl, fun hh => by cases hh⟩
      simp
    | some j =>
      refine ⟨⟨some j, st.cur, false⟩, rfl, Or.inl rfl, fun _ => ?_⟩
      split at hf
      · unfold World.inFile at hf
        obtain ⟨g, hg, hf⟩ := Option.bind_eq_some_iff.1 hf
        obtain ⟨F, hF, hf⟩ := Option.bind_eq_some_iff.1 hf
        exact ⟨g, F, h.cur.trans hg, by rw [h.files]; exact hF, hf⟩
      · cases hf
  | some i =>
    obtain ⟨x, hm, hx⟩ := h.here n i hi
    rw [image_some hi]
    unfold getMap
    simp only [hm]
    unfold setSource
    by_cases hc : e.saveAll = true ∧ x.img.isNone = true
    · simp only [if_pos hc]
      have hn : x.img = none := Option.isNone_iff_eq_none.1 hc.2
      have hl : x.loc = false := by
        rcases hx.1 with h1 | h1
        · rw [hn] at h1; cases h1
        · exact h1.2
      obtain ⟨g, F, hg, hF, hi'⟩ := hx.2 hl
      unfold getData
      simp only [hg, stored_of hF, hi', Res.bind_ok]
      exact ⟨_, rfl, Or.inl rfl, fun _ => ⟨g, F, rfl, hF, hi'⟩⟩
    · simp only [if_neg hc, Res.bind_ok]
      exact ⟨x, rfl, hx⟩

theorem model_ok {x : Entry φ ι} (hx : Holds st.files n i x) :
    (model e st n x).img = some i ∧ Holds st.files n i (model e st n x) := by
  unfold model
  cases hi : x.img with
  | some j =>
    simp only
    refine ⟨?_, hx⟩
    rcases hx.1 with h1 | h1
    · exact h1
    · rw [hi] at h1; cases h1.1
  | none =>
    simp only
    have hl : x.loc = false := by
      rcases hx.1 with h1 | h1
      · rw [hi] at h1; cases h1
      · exact h1.2
    obtain ⟨g, F, hg, hF, hi'⟩ := hx.2 hl
    unfold remake
    simp only [hg, stored_of hF, hi']
    exact ⟨trivial, Or.inl rfl, fun _ => ⟨g, F, rfl, hF, hi'⟩⟩

theorem use_ok (hp : e.computePoint = true) (h : Rel w st) :
    ∃ x, use e st n = .ok (st.put n (some x), x) ∧ x.img = some (w.image e n) ∧
      Holds st.files n (w.image e n) x := by
  obtain ⟨x, h1, h2⟩ := getMap_ok (n := n) hp h
  have h3 := model_ok (e := e) (st := st.put n (some x)) (x := x) h2
  refine ⟨model e (st.put n (some x)) n x, ?_, h3.1, h3.2⟩
  unfold use
  simp only [h1, Res.bind_ok, deref, put_put]

theorem put_rel {x : Entry φ ι} (h : Rel w st) (hx : Holds st.files n i x) :
    Rel { w with img := fun m => if m = n then some i else w.img m } (st.put n (some x)) where
  cur := h.cur
  files := h.files
  par := h.par
  none := by
    intro m hm
    simp only at hm
    unfold St.put
    simp only
    split at hm
    · cases hm
    · rw [if_neg (by assumption)]; exact h.none m hm
  here := by
    intro m j hm
    simp only at hm
    unfold St.put
    simp only
    split at hm
    · rename_i e1; subst e1; cases hm; rw [if_pos rfl]; exact ⟨x, rfl, hx⟩
    · rw [if_neg (by assumption)]; exact h.here m j hm

theorem write_rel {f : φ} {X : File ν ι π} (h : Rel w st)
    (hX : ∀ F, st.files f = some F → ∀ m i, w.img m = some i → F.map m = some i → X.map m = some i) :
    Rel (w.write f X) (st.write f X) where
  cur := h.cur
  files := by unfold St.write World.write; simp only [h.files]
  par := h.par
  none := h.none
  here := by
    intro m j hm
    obtain ⟨x, h1, h2, h3⟩ := h.here m j hm
    refine ⟨x, h1, h2, fun hl => ?_⟩
    obtain ⟨g, F, hg, hF, hi⟩ := h3 hl
    by_cases e1 : g = f
    · subst e1
      exact ⟨g, X, hg, by unfold St.write; simp, hX F hF m j hm hi⟩
    · exact ⟨g, F, hg, by unfold St.write; simp only [if_neg e1]; exact hF, hi⟩

theorem touch_one : w.touch e [n] = { w with img := fun m => if m = n then some (w.image e n) else w.img m } := by
  unfold World.touch
  congr 1
  funext m
  by_cases h : m = n <;> simp [h]

/-- The contents after the map of a source is written. -/
def withMap (x : File ν ι π) (n : ν) (i : ι) : File ν ι π :=
  { x with map := fun m => if m = n then some i else x.map m }

theorem writeMap_ok (hp : e.computePoint = true) (h : Rel w st) (f : φ) :
    ∃ st', writeMap e st n f = .ok st' ∧
      Rel ((w.touch e [n]).write f (withMap (w.content f false) n (w.image e n))) st' := by
  obtain ⟨x, h1, h2, h3⟩ := use_ok (n := n) hp h
  unfold writeMap
  simp only [h1, Res.bind_ok, put_put, h2]
  refine ⟨_, rfl, ?_⟩
  have hc : (st.put n (some x)).content f = w.content f false := content_eq h f
  rw [hc]
  refine ⟨h.cur, ?_, h.par, ?_, ?_⟩
  · unfold St.write World.write St.put World.touch; simp only [h.files]; rfl
  · intro m hm
    rw [touch_one] at hm
    simp only [World.write] at hm
    by_cases e1 : m = n
    · rw [if_pos e1] at hm; cases hm
    · rw [if_neg e1] at hm
      unfold St.write St.put
      simp only [if_neg e1]
      exact h.none m hm
  · intro m j hm
    rw [touch_one] at hm
    simp only [World.write] at hm
    by_cases e1 : m = n
    · subst e1
      rw [if_pos rfl] at hm
      cases hm
      refine ⟨⟨some (w.image e m), some f, false⟩, ?_, Or.inl rfl, fun _ => ⟨f, withMap (w.content f false) m (w.image e m), rfl, ?_, ?_⟩⟩
      · unfold St.write St.put; simp
      · unfold St.write St.put; simp only [if_true]; rfl
      · unfold withMap; simp
    · rw [if_neg e1] at hm
      obtain ⟨y, h4, h5, h6⟩ := h.here m j hm
      refine ⟨y, ?_, h5, fun hl => ?_⟩
      · unfold St.write St.put; simp only [if_neg e1]; exact h4
      · obtain ⟨g, F, hg, hF, hi⟩ := h6 hl
        by_cases e2 : g = f
        · subst e2
          refine ⟨g, withMap (w.content g false) n (w.image e n), hg, ?_, ?_⟩
          · unfold St.write St.put; simp only [if_true]; rfl
          · have : w.content g false = F := by
              unfold World.content; rw [← h.files, hF]; rfl
            unfold withMap; simp only [if_neg e1, this]; exact hi
        · refine ⟨g, F, hg, ?_, hi⟩
          unfold St.write St.put; simp only [if_neg e2]; exact hF

theorem keep_keep (r : Bool) (a b : Option ι) : keep r (keep r a b) b = keep r a b := by
  cases b <;> cases r <;> cases a <;> rfl

theorem write_write (f : φ) (X Y : File ν ι π) : (w.write f X).write f Y = w.write f Y := by
  unfold World.write
  congr 1
  funext g
  by_cases h : g = f <;> simp [h]

theorem touch_self (h : w.img n = some i) : w.touch e [n] = w := by
  rw [touch_one, image_some h]
  cases w
  congr 1
  funext m
  by_cases h1 : m = n
  · subst h1; rw [if_pos rfl]; exact h.symm
  · rw [if_neg h1]

/-- The contents after saving the maps of a list of sources. -/
def kept (replace : Bool) (img : ν → Option ι) (l : List ν) (x : File ν ι π) : File ν ι π :=
  { x with map := fun n => if n ∈ l then keep replace (x.map n) (img n) else x.map n }

theorem saveOne_ok (hp : e.computePoint = true) (h : Rel w st) {f : φ} {F : File ν ι π} (hF : w.files f = some F)
    (r : Bool) : ∃ st', saveOne e r st n f = .ok st' ∧ Rel (w.write f (kept r w.img [n] F)) st' := by
  have hF' : st.files f = some F := by rw [h.files]; exact hF
  have hid : F = kept r w.img [n] F → Rel (w.write f (kept r w.img [n] F)) st := by
    intro e1
    rw [← e1]
    have : w.write f F = w := by
      unfold World.write
      cases w
      congr 1
      funext g
      by_cases h : g = f
      · subst h; rw [if_pos rfl]; exact hF.symm
      · rw [if_neg h]
    rw [this]; exact h
  have hcont : w.content f false = F := by unfold World.content; rw [hF]; rfl
  unfold saveOne
  cases hi : w.img n with
  | none =>
    rw [h.none n hi]
    refine ⟨st, rfl, hid ?_⟩
    unfold kept
    cases F
    congr 1
    funext m
    by_cases e1 : m = n
    · subst e1; simp [hi, keep]
    · simp [e1]
  | some i =>
    obtain ⟨x, hm, hx⟩ := h.here n i hi
    rw [hm, stored_of hF']
    simp only [Option.isSome_some, if_true]
    have hw : ∃ st', writeMap e st n f = .ok st' ∧ Rel (w.write f (withMap F n i)) st' := by
      obtain ⟨st', h1, h2⟩ := writeMap_ok (n := n) hp h f
      refine ⟨st', h1, ?_⟩
      rwa [touch_self hi, hcont, image_some hi] at h2
    have he : (F.map n = none ∨ r = true) → kept r w.img [n] F = withMap F n i := by
      intro hh
      unfold kept withMap
      congr 1
      funext m
      by_cases e1 : m = n
      · subst e1
        simp only [List.mem_singleton, if_true, hi, keep]
        rcases hh with hh | hh
        · rw [hh]; cases r <;> rfl
        · rw [hh]; rfl
      · simp [e1]
    cases hs : F.map n with
    | none =>
      simp only [Option.isSome_none]
      rw [he (Or.inl hs)]
      exact hw
    | some j =>
      simp only [Option.isSome_some, if_true]
      cases r with
      | true => rw [he (Or.inr rfl)]; exact hw
      | false =>
        refine ⟨st, rfl, hid ?_⟩
        unfold kept
        cases F
        congr 1
        funext m
        by_cases e1 : m = n
        · subst e1; simp only at hs; simp [hi, keep, hs]
        · simp [e1]

theorem kept_cons (r : Bool) (img : ν → Option ι) (l : List ν) (F : File ν ι π) :
    kept r img l (kept r img [n] F) = kept r img (n :: l) F := by
  unfold kept
  congr 1
  funext m
  by_cases e1 : m = n
  · subst e1
    by_cases e2 : m ∈ l
    · simp [e2, keep_keep]
    · simp [e2]
  · simp [e1]

theorem saveLoop_ok (hp : e.computePoint = true) {f : φ} (r : Bool) : ∀ (l : List ν) (i : Nat)
    (w : World φ ν ι π) (st : St φ ν ι π) (F : File ν ι π), Rel w st → w.files f = some F →
    ∃ st', saveLoop e f false r l i (0, f) st = .ok st' ∧ Rel (w.write f (kept r w.img l F)) st'
  | [], i, w, st, F, h, hF => by
    refine ⟨st, rfl, ?_⟩
    have : w.write f (kept r w.img [] F) = w := by
      unfold World.write kept
      simp only [List.not_mem_nil, if_false]
      cases w
      congr 1
      funext g
      by_cases h : g = f
      · subst h; rw [if_pos rfl]; exact hF.symm
      · rw [if_neg h]
    rw [this]; exact h
  | n :: l, i, w, st, F, h, hF => by
    obtain ⟨s1, h1, h2⟩ := saveOne_ok (n := n) hp h hF r
    have ho : outFile e f false i (0, f) = (0, f) := by unfold outFile; rw [if_neg (by simp)]
    obtain ⟨s2, h3, h4⟩ := saveLoop_ok hp r l (i + 1) (w.write f (kept r w.img [n] F)) s1 (kept r w.img [n] F) h2
      (if_pos rfl)
    refine ⟨s2, ?_, ?_⟩
    · rw [saveLoop, ho, h1]
      exact h3
    · rw [write_write] at h4
      have : (w.write f (kept r w.img [n] F)).img = w.img := rfl
      rw [this, kept_cons] at h4
      exact h4

theorem images_ok (hp : e.computePoint = true) : ∀ (l : List ν) (w : World φ ν ι π) (st : St φ ν ι π), Rel w st →
    ∃ st', images e l st = .ok (st', l.map fun n => some (w.image e n)) ∧ Rel (w.touch e l) st'
  | [], w, st, h => by
    refine ⟨st, rfl, ?_⟩
    have : w.touch e [] = w := by unfold World.touch; simp
    rw [this]; exact h
  | n :: l, w, st, h => by
    obtain ⟨x, h1, h2, h3⟩ := use_ok (n := n) hp h
    have h4 := put_rel h h3
    rw [← touch_one] at h4
    obtain ⟨s, h5, h6⟩ := images_ok hp l _ _ h4
    have himg : ∀ m, (w.touch e [n]).image e m = w.image e m := by
      intro m
      rw [touch_one]
      by_cases e1 : m = n
      · subst e1
        exact image_some (by simp)
      · unfold World.image World.inFile
        simp only [if_neg e1]
    refine ⟨s, ?_, ?_⟩
    · rw [images]
      simp only [h1, Res.bind_ok, h5, h2, himg, List.map_cons]
    · have : (w.touch e [n]).touch e l = w.touch e (n :: l) := by
        unfold World.touch at himg ⊢
        simp only [himg]
        congr 1
        funext m
        by_cases e1 : m = n
        · subst e1; by_cases e2 : m ∈ l <;> simp [e2]
        · simp [e1]
      rw [← this]; exact h6

end Verif.MapFile
