import Verif.ScanApp.Model
import Verif.ScanApp.Spec
import Verif.ScanFile.Props
/-
The programs that scan over positions and energies (C152).
-/
set_option linter.unusedSectionVars false
set_option linter.unusedSimpArgs false
set_option linter.unusedVariables false
namespace Verif.ScanApp

open ScanFile Spec

variable {W : Type}

theorem mayWrite_iff (s : Setup W) : mayWrite s = true ↔ MayWrite s := by
  unfold mayWrite MayWrite
  simp [or_assoc]

theorem readWeights_ok {s : Setup W} {w : Option W} (h : Weights s w) : readWeights s = .ok w := by
  unfold readWeights
  rcases h with ⟨h1, rfl⟩ | ⟨h1, m, h2, rfl⟩
  · rw [if_neg (by simp [h1])]
  · rw [if_pos h1, h2]

theorem testSource_ok {s : Setup W} (h : HasTarget s) : testSource s = .ok () := by
  unfold testSource
  rcases h with h | h
  · rw [h]
    rfl
  · by_cases he : s.target.isEmpty = true
    · rw [if_pos he]
    · rw [if_neg he, if_pos h]

/-- What the program does once it may. -/
theorem run_eq (scan : Option W → Option W → Found) {s : Setup W} {w : Option W} (h1 : MayWrite s) (h2 : Weights s w) (h3 : HasTarget s) :
    run scan s = (ScanFile.run ⟨true, true, s.nNorm, s.level⟩ (scan (std s w) none) (ScanFile.start s.grid)).bind
      (fun sc => (ScanFile.write 0 false 0x3F sc).bind (fun f => .ok (.written f))) := by
  unfold run
  rw [if_neg (by simp [(mayWrite_iff s).mpr h1]), readWeights_ok h2, Res.bind_ok, testSource_ok h3, Res.bind_ok]
  unfold scanWith useWeights
  rw [if_neg (by simp : ¬ (false = true))]
  rfl

/-- The file is complete for the scan without weights. -/
theorem run_complete (scan : Option W → Option W → Found) (s : Setup W) (w : Option W) (hg : Full s.grid) (h1 : MayWrite s)
    (h2 : Weights s w) (h3 : HasTarget s) (hr : (scan (std s w) none).status = 0) :
    ∃ f, run scan s = .ok (.written f) ∧ Complete s (scan (std s w) none) f := by
  obtain ⟨sc, f, g1, g2, g3, g4, g5, -, g6, -, g7, g8, -⟩ :=
    C150_one_run_partial s.grid ⟨true, true, s.nNorm, s.level⟩ (scan (std s w) none) 0 0x3F false hg hr
  have hrun : ScanFile.run ⟨true, true, s.nNorm, s.level⟩ (scan (std s w) none) (ScanFile.start s.grid) = .ok sc := by
    rw [run_good hr]
    rw [ScanFile.runs, run_good hr, Res.bind_ok] at g1
    exact g1
  refine ⟨f, ?_, ⟨g3, g5 (by decide), g6 (by decide), g7.mpr (by decide), ?_⟩⟩
  · rw [run_eq scan h1 h2 h3, hrun]
    change (ScanFile.write 0 false 0x3F sc).bind _ = _
    rw [g2]
    rfl
  · rw [g8, if_pos (by decide)]

/-- If no weights are asked for and the first fit succeeds, the file is complete.  What is missing for the full property: weights, and a
first fit that fails. -/
theorem C152_file_partial (scan : Option W → Option W → Found) (s : Setup W) (hg : Full s.grid) (h1 : MayWrite s) (h2 : Weights s none)
    (h3 : HasTarget s) (hr : (scan none none).status = 0) : ∃ f, run scan s = .ok (.written f) ∧ Complete s (scan none none) f := by
  have hs : std s (none : Option W) = none := by
    unfold std
    split <;> rfl
  have := run_complete scan s none hg h1 h2 h3 (by rw [hs]; exact hr)
  rwa [hs] at this

example : Weights (⟨⟨3, some 2, 4⟩, 5, 0, "none", "", "out.fits", false, fun _ => (none : Option Nat), [], []⟩ : Setup Nat) none :=
  Or.inl ⟨rfl, rfl⟩

/-- A map of weights is read, but it is not used in the scan: without the standard fitter the program does the same as without the
map; and if the weights make a difference in the test statistic anywhere, the file is not that of the scan with weights. -/
theorem C152_weights_violates (scan : Option W → Option W → Found) (s : Setup W) (m : W) (hg : Full s.grid) (h1 : MayWrite s)
    (h2 : s.wmap ≠ "none") (hm : s.maps s.wmap = some m) (h3 : HasTarget s) :
    (s.level ≤ 0 → run scan s = run scan { s with wmap := "none" }) ∧
    ((scan (std s (some m)) none).status = 0 → ∀ ny p, s.grid.ny = some ny → p < s.grid.nx * ny →
      (scan (std s (some m)) none).vals (ScanFile.Spec.primaryName ⟨true, true, s.nNorm, s.level⟩) p ≠
        (scan (std s (some m)) (some m)).vals (ScanFile.Spec.primaryName ⟨true, true, s.nNorm, s.level⟩) p →
      ∃ f, run scan s = .ok (.written f) ∧ ¬ Complete s (scan (std s (some m)) (some m)) f) := by
  have hw : Weights s (some m) := Or.inr ⟨h2, m, hm, rfl⟩
  refine ⟨fun hl => ?_, fun hr ny p hy hp hne => ?_⟩
  · rw [run_eq scan h1 hw h3, run_eq (s := { s with wmap := "none" }) (w := none) scan h1 (Or.inl ⟨rfl, rfl⟩) h3]
    have e1 : std s (some m) = none := by
      unfold std
      rw [if_neg (by omega)]
    have e2 : std { s with wmap := "none" } (none : Option W) = none := by
      unfold std
      split <;> rfl
    rw [e1, e2]
  · obtain ⟨f, f1, f2⟩ := run_complete scan s (some m) hg h1 hw h3 hr
    refine ⟨f, f1, fun hc => hne ?_⟩
    have he := f2.primary.symm.trans hc.primary
    unfold ScanFile.Spec.primary at he
    simp only [hy, Option.map_some, Option.some.injEq, Prod.mk.injEq, true_and] at he
    have := congrArg (fun l : List ℝ => l[p]?) he
    simp only [List.getElem?_map, List.getElem?_range hp, Option.map_some, Option.some.injEq] at this
    exact this

example : ∃ (scan : Option Nat → Option Nat → Found) (m : Nat), (scan none none).status = 0 ∧ (scan none none).vals ⟨.tsMap, false⟩ 0 ≠
    (scan none (some m)).vals ⟨.tsMap, false⟩ 0 :=
  ⟨fun _ w => ⟨0, fun _ _ => if w = none then 1 else 2, [], []⟩, 7, rfl, by simp⟩

/-- If the first fit fails, the program ends as if all were well, and leaves a file with no image and empty tables. -/
theorem C152_failed_violates (scan : Option W → Option W → Found) (s : Setup W) (w : Option W) (h1 : MayWrite s) (h2 : Weights s w)
    (h3 : HasTarget s) (hr : (scan (std s w) none).status ≠ 0) :
    ∃ f, run scan s = .ok (.written f) ∧ f.primary = none ∧ f.fit.cols = [] ∧ f.scan.cols = [] ∧ f.baseline = none ∧
      f.energies = true := by
  refine ⟨⟨none, [], ⟨0, [], []⟩, ⟨0, [], []⟩, true, none, false⟩, ?_, rfl, rfl, rfl, rfl, rfl⟩
  rw [run_eq scan h1 h2 h3, run_bad hr]
  rfl

/-- Nothing is scanned or written if the file exists and may not be overwritten; a source that is not in the model, or a map of weights
that cannot be read, ends the program with an error. -/
theorem C152_refusals (scan : Option W → Option W → Found) (s : Setup W) :
    (¬ MayWrite s → run scan s = .ok .refused) ∧
    (MayWrite s → (∀ w, ¬ Weights s w) → run scan s = .throws) ∧
    (∀ w, MayWrite s → Weights s w → ¬ HasTarget s → run scan s = .throws) := by
  refine ⟨fun h => ?_, fun h1 h2 => ?_, fun w h1 h2 h3 => ?_⟩
  · unfold run
    rw [if_pos (by
      have : mayWrite s ≠ true := fun hc => h ((mayWrite_iff s).mp hc)
      simpa using this)]
  · unfold run
    rw [if_neg (by simp [(mayWrite_iff s).mpr h1])]
    have hn : s.wmap ≠ "none" := fun hc => h2 none (Or.inl ⟨hc, rfl⟩)
    have hm : s.maps s.wmap = none := by
      cases hm : s.maps s.wmap with
      | none => rfl
      | some m => exact absurd (Or.inr ⟨hn, m, hm, rfl⟩) (h2 (some m))
    unfold readWeights
    rw [if_pos hn, hm]
    rfl
  · unfold run
    rw [if_neg (by simp [(mayWrite_iff s).mpr h1]), readWeights_ok h2, Res.bind_ok]
    unfold testSource
    have he : ¬ (s.target.isEmpty = true) := fun hc => h3 (Or.inl (by simpa using hc))
    rw [if_neg he, if_neg (fun hc => h3 (Or.inr hc))]
    rfl

example : ¬ MayWrite (⟨⟨3, some 2, 4⟩, 5, 0, "none", "", "out.fits", false, fun _ => (none : Option Nat), [], ["out.fits"]⟩ : Setup Nat) := by
  unfold MayWrite
  simp

end Verif.ScanApp
