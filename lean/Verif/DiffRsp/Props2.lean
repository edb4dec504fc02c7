import Verif.DiffRsp.Props
/-
C104: where the files do not hold what is expected.
-/
set_option linter.unusedSimpArgs false
set_option linter.unusedVariables false
namespace Verif.DiffRsp
open Verif

/-- A column with the same value everywhere. -/
def flat (v : ℝ) : Option (Nat → ℝ) := some fun _ => v

/-- A file of one event with the given names and columns. -/
def file0 (keys : List Name) (cols : Cols) : EvFile := ⟨keys, cols, 1, fun j => ⟨j, 1⟩⟩

/-- The component of a source with the response functions of the examples. -/
def comp0 (s : String) : Name := Spec.component "P8".toList s.toList

/-- **C104 is violated: `clobber` does not recompute.**  Whatever the response is now, a run with
`clobber` leaves the value that the file held. -/
theorem C104_clobber_violates {base : Cfg → Name} {c : Cfg} (hg : Good base c) (hcl : c.clobber = true)
    {f : EvFile} (hf : Spec.Tidy f) (hp : Plain f) {x : Src} (hx : x ∈ c.srcs) {j : Nat} (hj : j < f.nrow) {v : ℝ}
    (hv : Spec.Stored f (Spec.component (base c) x.name) j v) :
    ∃ f', run c [f] = .ok [f'] ∧ reads c.irf f' x.name j = .ok v := by
  obtain ⟨f', h1, h2, -, ⟨h4, -⟩, h5⟩ := C104_run_partial hg hf hp
  refine ⟨f', h1, ?_⟩
  exact (C104_reading_partial hg.irf h2 (by rw [h4]; exact hj)).1 v ((h5 _ (comp_ne _ _) j hj v).2 (Or.inl hv))

/-- The hypotheses of `C104_clobber_violates` hold: the file has 2, the response is 5. -/
example : ∃ f', run (cfg0 [src0 "Gal" 5, src0 "Iso" 7] true)
      [file0 [comp0 "Gal"] fun i => if i = 0 then flat 2 else none] = .ok [f'] ∧
    reads irf0 f' "Gal".toList 0 = .ok 2 ∧
    Spec.value (cfg0 [src0 "Gal" 5, src0 "Iso" 7] true) (src0 "Gal" 5) ⟨0, 1⟩ = 5 := by
  obtain ⟨f', h1, h2⟩ := C104_clobber_violates (good0 5 7 true) rfl
    (f := file0 [comp0 "Gal"] fun i => if i = 0 then flat 2 else none) (j := 0) (v := 2)
    ⟨⟨[comp0 "Gal"], 0, rfl, by simp, by decide⟩, by
      intro i hi
      have : i = 0 := by
        have : i < 1 := hi
        omega
      subst this
      rfl⟩
    (by
      intro n hn
      rw [List.mem_singleton.1 hn]
      decide) (x := src0 "Gal" 5) (List.mem_cons_self) (by decide)
    ⟨0, fun _ => 2, rfl, rfl, rfl⟩
  refine ⟨f', h1, h2, ?_⟩
  unfold Spec.value
  rw [if_pos (show Spec.Wanted _ _ by simp [Spec.Wanted, cfg0])]
  rfl

/-- **C104 is violated: an unused column before a used one.**  The file holds 9 for one component; after
a run for another one an analysis gets 0 for the first. -/
theorem C104_unused_violates :
    ∃ f', run (cfg0 [src0 "Iso" 5] false)
        [file0 [noName, comp0 "Gal"] fun i => if i = 0 then flat 0 else if i = 1 then flat 9 else none] = .ok [f'] ∧
      reads irf0 (file0 [noName, comp0 "Gal"] fun i => if i = 0 then flat 0 else if i = 1 then flat 9 else none)
        "Gal".toList 0 = .ok 9 ∧
      reads irf0 f' "Gal".toList 0 = .ok 0 := by
  exact ⟨_, rfl, rfl, rfl⟩

/-- **C104 is violated: two unused columns before a used one.**  Already reading gives the value of
another column. -/
theorem C104_unused_reading_violates :
    ∃ f : EvFile, Spec.Stored f (comp0 "Gal") 0 9 ∧ (∀ v, Spec.Stored f (comp0 "Gal") 0 v → v = 9) ∧
      reads irf0 f "Gal".toList 0 = .ok 0 := by
  refine ⟨file0 [noName, noName, comp0 "Gal"] fun i => if i < 2 then flat 0 else if i = 2 then flat 9 else none,
    ⟨2, fun _ => 9, rfl, rfl, rfl⟩, ?_, rfl⟩
  rintro v ⟨i, c, h1, h2, h3⟩
  have hi := (List.getElem?_eq_some_iff.1 h1).1
  have hi3 : i < 3 := hi
  rcases i with _ | _ | _ | i
  · exact absurd (Option.some.inj h1) (by decide)
  · exact absurd (Option.some.inj h1) (by decide)
  · have : c = fun _ => 9 := (Option.some.inj h2).symm
    rw [this] at h3
    exact h3.symm
  · omega

/-- **C104 is violated: files with different components.**  Each of two files can be read before the
run; after it the second one cannot be read at all. -/
theorem C104_files_violates :
    ∃ f1' f2', run (cfg0 [src0 "Iso" 5] false)
        [file0 [comp0 "Gal"] fun i => if i = 0 then flat 8 else none,
         file0 [comp0 "Sun"] fun i => if i = 0 then flat 9 else none] = .ok [f1', f2'] ∧
      reads irf0 (file0 [comp0 "Sun"] fun i => if i = 0 then flat 9 else none) "Sun".toList 0 = .ok 9 ∧
      reads irf0 f1' "Gal".toList 0 = .ok 8 ∧ reads irf0 f1' "Iso".toList 0 = .ok 5 ∧
      reads irf0 f2' "Sun".toList 0 = .throws ∧ reads irf0 f2' "Iso".toList 0 = .throws := by
  exact ⟨_, _, rfl, rfl, rfl, rfl, rfl, rfl⟩

/-- **C104 is violated: a later file gets the components of an earlier one.**  The second file has unused
columns only; after the run for one source it gives 0 for a component that was never computed for it. -/
theorem C104_carried_violates :
    ∃ f1' f2', run (cfg0 [src0 "Iso" 5] false)
        [file0 [comp0 "Gal"] fun i => if i = 0 then flat 8 else none, fresh0] = .ok [f1', f2'] ∧
      reads irf0 fresh0 "Gal".toList 0 = .throws ∧ reads irf0 f2' "Gal".toList 0 = .ok 0 := by
  exact ⟨_, _, rfl, rfl, rfl⟩

/-- **C104 is violated: names that differ in case only.**  The second source gets the response of the
first. -/
theorem C104_case_violates :
    ∃ f', run (cfg0 [src0 "GAL" 5, src0 "Gal" 7] false) [fresh0] = .ok [f'] ∧
      reads irf0 f' "Gal".toList 0 = .ok 5 := by
  exact ⟨_, rfl, rfl⟩

/-- **C104 is violated: components with the old separator.**  The tool takes them as computed, an analysis
does not find them. -/
theorem C104_separator_violates :
    run (cfg0 [src0 "Gal" 5] false) [file0 ["p8::gal".toList] fun i => if i = 0 then flat 2 else none] =
      .ok [file0 ["p8::gal".toList] fun i => if i = 0 then flat 2 else none] ∧
    reads irf0 (file0 ["p8::gal".toList] fun i => if i = 0 then flat 2 else none) "Gal".toList 0 = .throws := by
  exact ⟨rfl, rfl⟩

/-- **C104 is violated: event class 32.**  The tool lets it pass and shifts by 32. -/
theorem C104_class_violates (irf : Name) (srcs : List Src) (n : Nat) {f : EvFile} (hf : Spec.Tidy f) :
    run ⟨irf, srcs, true, false, n, some 32⟩ [f] = .ub := by
  obtain ⟨⟨real, k, h, hr, hz⟩, hc⟩ := hf
  obtain ⟨g, hg1, -, -⟩ := readEvents_tidy h hr hz hc
  simp [run, files, process, hg1, target]

/-- The hypothesis of `C104_class_violates` holds. -/
example : run ⟨irf0, [src0 "Gal" 5], true, false, 0, some 32⟩ [fresh0] = .ub :=
  C104_class_violates _ _ _ tidy0.1

end Verif.DiffRsp
