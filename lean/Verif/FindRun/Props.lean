import Verif.FindRun.Model
import Verif.FindRun.Spec
set_option linter.unusedVariables false
set_option linter.unusedSimpArgs false
/-
C159: which files a run of `gtfindsrc` changes, and to what.
-/
namespace Verif.FindRun

variable {α ρ : Type}

theorem named_iff (n : String) : named n = true ↔ ¬ NoFile n := by
  unfold named NoFile
  simp

theorem fit_files (o : Opts α) (look : Model α → α → Option (Found α ρ)) (fs : Files α ρ) (n : String) (a : α) (m : Model α) (k : String)
    (hk : k ≠ o.outfile ∨ NoFile o.outfile) : (fitPosition o look fs n a m).1 k = fs k := by
  have hw : ∀ r : ρ, (if named o.outfile then write fs o.outfile (.report r) else fs) k = fs k := by
    intro r
    split
    · rename_i h
      rcases hk with hk | hk
      · unfold write; rw [if_neg hk]
      · exact absurd hk ((named_iff _).1 h)
    · rfl
  unfold fitPosition
  split
  · rfl
  · split
    · rfl
    · simp only
      split
      · exact hw _
      · split <;> exact hw _

/-- **C159 (no clobber).** Without `clobber` no file that exists is changed, whatever happens in the
run. -/
theorem C159_no_clobber (o : Opts α) (look : Model α → α → Option (Found α ρ)) (fs : Files α ρ) (hc : o.clobber = false)
    (k : String) (c : Content α ρ) (hk : fs k = some c) : (run o look fs).1 k = some c := by
  unfold run
  split
  · exact hk
  · rename_i h
    have hne : k ≠ o.outfile := fun e => h ⟨hc, by rw [← e, hk]; rfl⟩
    split
    · exact hk
    · split
      · exact hk
      · rename_i n a m' _
        have hf := fit_files o look fs n a m' k (Or.inl hne)
        split
        · rename_i fs' he; rw [he] at hf; exact hf.trans hk
        · rename_i fs' m'' he
          rw [he] at hf
          rw [hc, if_neg (by simp)]
          exact hf.trans hk

/-- **C159 (other files).** Whatever happens, no file but `outfile` and `srcmdl` is changed or made. -/
theorem C159_others (o : Opts α) (look : Model α → α → Option (Found α ρ)) (fs : Files α ρ) (k : String)
    (h1 : k ≠ o.outfile) (h2 : k ≠ o.srcmdl) : (run o look fs).1 k = fs k := by
  unfold run
  split
  · rfl
  · split
    · rfl
    · split
      · rfl
      · rename_i n a m' _
        have hf := fit_files o look fs n a m' k (Or.inl h1)
        split
        · rename_i fs' he; rw [he] at hf; exact hf
        · rename_i fs' m'' he
          rw [he] at hf
          split
          · show write fs' o.srcmdl _ k = _
            unfold write; rw [if_neg h2]; exact hf
          · exact hf

/-- **C159 (target in the model).** The target is a point source of the model, with a name other than
`testSource`; the search succeeds and the position can be stored.  Then the run succeeds, the points
are in `outfile` if one is named, and with `clobber` the source model has the target at the position
found and the other sources as the search left them.  Nothing else is changed. -/
theorem C159_target_partial (o : Opts α) (look : Model α → α → Option (Found α ρ)) (fs : Files α ρ) (m : Model α) (a b : α) (r : Found α ρ)
    (hm : ¬ NoFile o.srcmdl) (hr : fs o.srcmdl = some (.model m)) (ht : m o.target = some (.point a)) (hn : o.target ≠ "testSource")
    (hl : look (without m o.target) a = some r) (hb : r.stored = some b) (hx : o.clobber = true ∨ fs o.outfile = none) :
    ∃ fs', run o look fs = (fs', true) ∧
      ((NoFile o.outfile ∧ o.clobber = false → fs' = fs) ∧
       (NoFile o.outfile ∧ o.clobber = true → fs' = written fs o.srcmdl (.model (with_ r.others o.target b))) ∧
       (¬ NoFile o.outfile ∧ o.clobber = false → fs' = written fs o.outfile (.report r.report)) ∧
       (¬ NoFile o.outfile ∧ o.clobber = true →
         fs' = written (written fs o.outfile (.report r.report)) o.srcmdl (.model (with_ r.others o.target b)))) := by
  have h1 : ¬ (o.clobber = false ∧ (fs o.outfile).isSome = true) := by
    rintro ⟨e1, e2⟩
    rcases hx with hx | hx
    · rw [e1] at hx; cases hx
    · rw [hx] at e2; cases e2
  have h2 : readModel o fs = some m := by unfold readModel; rw [if_pos ((named_iff _).2 hm), hr]
  have h3 : identify o m = some (o.target, a, put m o.target none) := by unfold identify; rw [ht]
  have e : put m o.target none = without m o.target := rfl
  have hp : put (put r.others o.target (some (.point r.left))) o.target (some (.point b)) = with_ r.others o.target b := by
    funext k
    unfold put with_
    split <;> rfl
  have h4 : fitPosition o look fs o.target a (put m o.target none) =
      (if named o.outfile then write fs o.outfile (.report r.report) else fs, some (with_ r.others o.target b)) := by
    unfold fitPosition
    rw [e, if_neg (by simp [without])]
    simp only [hl, if_neg hn, hb, hp]
  have h5 : (with_ r.others o.target b o.target).isSome = true := by simp [with_]
  unfold run
  simp only [if_neg h1, h2, h3, h4, h5, and_true]
  by_cases hc : o.clobber = true
  · rw [if_pos hc]
    refine ⟨_, rfl, ?_, ?_, ?_, ?_⟩
    · rintro ⟨_, h⟩; rw [h] at hc; cases hc
    · rintro ⟨h, _⟩
      rw [if_neg (by rw [named_iff]; exact not_not.2 h)]; rfl
    · rintro ⟨_, h⟩; rw [h] at hc; cases hc
    · rintro ⟨h, _⟩
      rw [if_pos ((named_iff _).2 h)]; rfl
  · rw [if_neg hc]
    refine ⟨_, rfl, ?_, ?_, ?_, ?_⟩
    · rintro ⟨h, _⟩
      rw [if_neg (by rw [named_iff]; exact not_not.2 h)]
    · rintro ⟨_, h⟩; exact absurd h hc
    · rintro ⟨h, _⟩
      rw [if_pos ((named_iff _).2 h)]; rfl
    · rintro ⟨_, h⟩; exact absurd h hc

/-- A model with a target at 5 and another source. -/
def toyM : Model Nat := fun k => if k = "t" then some (.point 5) else if k = "g" then some (.other 1) else none

/-- A search that finds the target at 7 and leaves the others. -/
def toyLook : Model Nat → Nat → Option (Found Nat Nat) := fun m a => some ⟨m, a, some 7, 99⟩

/-- There is a model file. -/
def toyFs : Files Nat Nat := fun k => if k = "m.xml" then some (.model toyM) else none

example : ∃ fs', run ⟨"out", "m.xml", "t", true, 0⟩ toyLook toyFs = (fs', true) ∧
    fs' = written (written toyFs "out" (.report 99)) "m.xml" (.model (with_ (without toyM "t") "t" 7)) := by
  obtain ⟨fs', h1, _, _, _, h2⟩ := C159_target_partial ⟨"out", "m.xml", "t", true, 0⟩ toyLook toyFs toyM 5 7 ⟨without toyM "t", 5, some 7, 99⟩
    (by simp [NoFile]) rfl rfl (by simp) rfl rfl (Or.inl rfl)
  exact ⟨fs', h1, h2 ⟨by simp [NoFile], rfl⟩⟩

example : (run ⟨"out", "m.xml", "t", false, 0⟩ toyLook toyFs).1 "m.xml" = some (.model toyM) :=
  C159_no_clobber _ _ _ rfl _ _ rfl

example : (run ⟨"out", "m.xml", "t", true, 0⟩ toyLook toyFs).1 "events" = none := C159_others _ _ _ _ (by simp) (by simp)

/-- **C159 (target not in the model, or no model given).** Then the source model is not written, with or without
`clobber`; if no source has the name `testSource` and the search succeeds from the coordinates given, the
points are in `outfile`. -/
theorem C159_missing (o : Opts α) (look : Model α → α → Option (Found α ρ)) (fs : Files α ρ) (m : Model α) (r : Found α ρ)
    (hm : (NoFile o.srcmdl ∧ m = fun _ => none) ∨ (¬ NoFile o.srcmdl ∧ fs o.srcmdl = some (.model m))) (ht : m o.target = none) (hn : m "testSource" = none)
    (hl : look m o.coords = some r) (hk : r.others o.target = none) (hx : o.clobber = true ∨ fs o.outfile = none)
    (ho : ¬ NoFile o.outfile) : run o look fs = (written fs o.outfile (.report r.report), true) := by
  have h1 : ¬ (o.clobber = false ∧ (fs o.outfile).isSome = true) := by
    rintro ⟨e1, e2⟩
    rcases hx with hx | hx
    · rw [e1] at hx; cases hx
    · rw [hx] at e2; cases e2
  have h2 : readModel o fs = some m := by
    unfold readModel
    rcases hm with ⟨hm, rfl⟩ | ⟨hm, hr⟩
    · rw [if_neg (by rw [named_iff]; exact not_not.2 hm)]
    · rw [if_pos ((named_iff _).2 hm), hr]
  have h3 : identify o m = some ("testSource", o.coords, m) := by unfold identify; rw [ht]
  have h4 : fitPosition o look fs "testSource" o.coords m =
      (write fs o.outfile (.report r.report), some (put r.others "testSource" none)) := by
    unfold fitPosition
    rw [if_neg (by rw [hn]; simp)]
    simp only [hl, if_true, if_pos ((named_iff _).2 ho)]
  have h5 : (put r.others "testSource" none o.target).isSome = false := by
    unfold put
    split
    · rfl
    · rw [hk]; rfl
  unfold run
  simp only [if_neg h1, h2, h3, h4, h5, Bool.false_eq_true, and_false, if_false]
  rfl

example : run ⟨"out", "m.xml", "x", true, 3⟩ toyLook toyFs = (written toyFs "out" (.report 99), true) :=
  C159_missing _ _ _ toyM ⟨toyM, 3, some 7, 99⟩ (Or.inr ⟨by simp [NoFile], rfl⟩) rfl rfl rfl rfl (Or.inl rfl) (by simp [NoFile])

example : run ⟨"out", "none", "x", true, 3⟩ toyLook toyFs = (written toyFs "out" (.report 99), true) :=
  C159_missing _ _ _ (fun _ => none) ⟨fun _ => none, 3, some 7, 99⟩ (Or.inl ⟨Or.inr rfl, rfl⟩) rfl rfl rfl rfl (Or.inl rfl) (by simp [NoFile])

/-- **C159 (failures).** If `outfile` exists and `clobber` is not set, or the source model cannot be read,
or the target is not a point source, or the search fails, the run fails and no file is changed. -/
theorem C159_fails (o : Opts α) (look : Model α → α → Option (Found α ρ)) (fs : Files α ρ) :
    (o.clobber = false → fs o.outfile ≠ none → run o look fs = (fs, false)) ∧
    (¬ NoFile o.srcmdl → fs o.srcmdl = none → run o look fs = (fs, false)) ∧
    (∀ m a, ¬ NoFile o.srcmdl → fs o.srcmdl = some (.model m) → m o.target = some (.other a) → run o look fs = (fs, false)) ∧
    ((∀ m a, look m a = none) → run o look fs = (fs, false)) := by
  refine ⟨fun h1 h2 => ?_, fun h1 h2 => ?_, fun m a h1 h2 h3 => ?_, fun h => ?_⟩
  · unfold run
    rw [if_pos ⟨h1, Option.isSome_iff_ne_none.2 h2⟩]
  · unfold run readModel
    rw [if_pos ((named_iff _).2 h1), h2]
    simp
  · unfold run readModel identify
    rw [if_pos ((named_iff _).2 h1), h2]
    simp [h3]
  · have hf : ∀ n a m, fitPosition o look fs n a m = (fs, none) := by
      intro n a m
      unfold fitPosition
      split
      · rfl
      · rw [h]
    unfold run
    split
    · rfl
    · split
      · rfl
      · split
        · rfl
        · rw [hf]

example : run ⟨"out", "m.xml", "g", true, 3⟩ toyLook toyFs = (toyFs, false) :=
  (C159_fails _ _ _).2.2.1 toyM 1 (by simp [NoFile]) rfl rfl

/-- **C159 (violation).** A target of the model with the name `testSource`: a position is found and
reported, but the source model is not written although `clobber` is set. -/
theorem C159_test_name_violates (o : Opts α) (look : Model α → α → Option (Found α ρ)) (fs : Files α ρ) (m : Model α) (a b : α) (r : Found α ρ)
    (hm : ¬ NoFile o.srcmdl) (hr : fs o.srcmdl = some (.model m)) (ht : o.target = "testSource") (hp : m "testSource" = some (.point a))
    (hl : look (without m "testSource") a = some r) (hb : r.stored = some b) (hc : o.clobber = true) (ho : ¬ NoFile o.outfile) :
    run o look fs = (written fs o.outfile (.report r.report), true) := by
  have h2 : readModel o fs = some m := by unfold readModel; rw [if_pos ((named_iff _).2 hm), hr]
  have h3 : identify o m = some ("testSource", a, put m "testSource" none) := by unfold identify; rw [ht, hp]
  have h4 : fitPosition o look fs "testSource" a (put m "testSource" none) =
      (write fs o.outfile (.report r.report), some (put r.others "testSource" none)) := by
    unfold fitPosition
    rw [if_neg (by simp [put]), show put m "testSource" none = without m "testSource" from rfl]
    simp only [hl, if_true, if_pos ((named_iff _).2 ho)]
  unfold run
  simp only [hc, h2, h3, h4, ht, Bool.true_eq_false, false_and, if_false]
  rw [if_neg (by simp [put])]
  rfl

/-- A model whose target has that name. -/
def toyT : Files Nat Nat := fun k => if k = "m.xml" then some (.model fun k => if k = "testSource" then some (.point 5) else none) else none

example : run ⟨"out", "m.xml", "testSource", true, 0⟩ toyLook toyT = (written toyT "out" (.report 99), true) :=
  C159_test_name_violates _ _ _ _ 5 7 ⟨_, 5, some 7, 99⟩ (by simp [NoFile]) rfl rfl rfl rfl rfl rfl (by simp [NoFile])

/-- **C159 (violation).** A source with the name `testSource` in the model and a target that is not in the
model: the run fails whatever the search would give. -/
theorem C159_name_taken_violates (o : Opts α) (look : Model α → α → Option (Found α ρ)) (fs : Files α ρ) (m : Model α) (s : Src α)
    (hm : ¬ NoFile o.srcmdl) (hr : fs o.srcmdl = some (.model m)) (ht : m o.target = none) (hs : m "testSource" = some s) :
    run o look fs = (fs, false) := by
  unfold run readModel identify fitPosition
  rw [if_pos ((named_iff _).2 hm), hr]
  simp [ht, hs]

example : run ⟨"out", "m.xml", "x", true, 0⟩ toyLook toyT = (toyT, false) :=
  C159_name_taken_violates _ _ _ _ _ (by simp [NoFile]) rfl rfl rfl

/-- **C159 (violation).** The position found cannot be stored: the run fails, but `outfile` was written,
over a file that was there if `clobber` is set. -/
theorem C159_report_kept_violates (o : Opts α) (look : Model α → α → Option (Found α ρ)) (fs : Files α ρ) (m : Model α) (a : α) (r : Found α ρ)
    (hm : ¬ NoFile o.srcmdl) (hr : fs o.srcmdl = some (.model m)) (ht : m o.target = some (.point a)) (hn : o.target ≠ "testSource")
    (hl : look (without m o.target) a = some r) (hb : r.stored = none) (hc : o.clobber = true) (ho : ¬ NoFile o.outfile) :
    run o look fs = (written fs o.outfile (.report r.report), false) := by
  have h2 : readModel o fs = some m := by unfold readModel; rw [if_pos ((named_iff _).2 hm), hr]
  have h3 : identify o m = some (o.target, a, put m o.target none) := by unfold identify; rw [ht]
  have h4 : fitPosition o look fs o.target a (put m o.target none) = (write fs o.outfile (.report r.report), none) := by
    unfold fitPosition
    rw [show put m o.target none = without m o.target from rfl, if_neg (by simp [without])]
    simp only [hl, if_neg hn, hb, if_pos ((named_iff _).2 ho)]
  unfold run
  simp only [hc, h2, h3, h4, Bool.true_eq_false, false_and, if_false]
  rfl

example : run ⟨"out", "m.xml", "t", true, 0⟩ (fun m a => some ⟨m, a, none, 99⟩) toyFs = (written toyFs "out" (.report 99), false) :=
  C159_report_kept_violates _ _ _ toyM 5 ⟨_, 5, none, 99⟩ (by simp [NoFile]) rfl rfl (by simp) rfl rfl rfl (by simp [NoFile])

/-- **C159 (violation).** With `outfile` set to `none` nothing is written, but the run fails if there is a
file called `none` and `clobber` is not set. -/
theorem C159_none_violates (o : Opts α) (look : Model α → α → Option (Found α ρ)) (fs : Files α ρ) (c : Content α ρ)
    (ho : o.outfile = "none") (hf : fs "none" = some c) (hc : o.clobber = false) : run o look fs = (fs, false) :=
  (C159_fails o look fs).1 hc (by rw [ho, hf]; simp)

example : run ⟨"none", "m.xml", "t", false, 0⟩ toyLook (written toyFs "none" .else_) = (written toyFs "none" .else_, false) :=
  C159_none_violates _ _ _ .else_ rfl rfl rfl

end Verif.FindRun
