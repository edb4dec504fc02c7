import Verif.SrcApp.Lemmas
set_option linter.unusedSectionVars false
set_option linter.unusedSimpArgs false
set_option linter.unusedVariables false
/-
Properties of runs of gtsrcmaps.
-/
namespace Verif.SrcApp
open Verif Verif.MapFile Spec

variable {φ ν ι π : Type} [DecidableEq φ] [DecidableEq ν]
variable {e : Env φ ν ι π} {p : Pars φ} {noneName : φ} {self : Option (File ν ι π)} {par : π}
variable {files : φ → Option (File ν ι π)}

/-- Without `clobber` a file that is there is not touched, nor any other, whatever its name and whether
extensions are to be copied. -/
theorem C161_refused (h : ¬ Writable p files) (checks : Bool) :
    run e p noneName self checks par files = (.fails, files) := by
  have hc : p.clobber = false := by
    cases hc : p.clobber
    · rfl
    · exact absurd (.inl hc) h
  have ho : (files p.out).isSome = true := by
    cases ho : files p.out
    · exact absurd (.inr ho) h
    · rfl
  unfold run
  split
  · rfl
  · split
    · rfl
    · simp [output, hc, ho]

/-- A run whose checks fail, or whose counts map is missing, changes no file. -/
theorem C161_checks {checks : Bool} (h : checks = false ∨ files p.cmap = none) :
    run e p noneName self checks par files = (.fails, files) := by
  unfold run
  split
  · rfl
  · rw [if_pos]
    rcases h with h | h <;> simp [h]

/-- The start of a run that is allowed to write. -/
theorem run_start {C : File ν ι π} (hw : Writable p files) (hC : files p.cmap = some C) :
    run e p noneName self true par files =
      match output p self ⟨some p.cmap, files, fun _ => none, par⟩ with
      | .ok st =>
        match maps e p st with
        | .ok st' => (.done, st'.files)
        | .throws => (.fails, st.files)
        | .ub => (.undefined, st.files)
      | .throws => (.fails, files)
      | .ub => (.undefined, files) := by
  have hr : ¬ refused p noneName files = true := by
    rcases hw with hw | hw <;> simp [refused, hw]
  have hc : ¬ (!true || !(files p.cmap).isSome) = true := by simp [hC]
  unfold run
  rw [if_neg hr, if_neg hc]
  rfl

/-- The output before the maps, if it is another file than the counts map. -/
theorem output_other {C : File ν ι π} {st : St φ ν ι π} (hw : Writable p st.files) (hC : st.files p.cmap = some C) (hne : p.out ≠ p.cmap) :
    output p self st = .ok (st.write p.out (if p.copyall then C else fresh true)) := by
  unfold output
  rw [if_pos (by rcases hw with hw | hw <;> simp [hw])]
  cases hca : p.copyall
  · rfl
  · simp [hne, hC]

/-- For fewer than 500 sources, an output that is not the file of the counts map and may be written,
the output has the counts and the map of every source asked for: that of the counts map's file if it has
one, and the computed one otherwise; further extensions are copied if that is asked for, and no other
file is changed.  Partial: `C161_many_violates` and `C161_input_violates` are the other cases. -/
theorem C161_maps_partial {C : File ν ι π} (hd : e.srcs.Nodup) (hw : Writable p files) (hC : files p.cmap = some C)
    (hne : p.out ≠ p.cmap) (hn : e.srcs.length < 500) :
    ∃ fs F, run e p noneName self true par files = (.done, fs) ∧ fs p.out = some F ∧ TakenOver e p C F ∧
      ∀ g, g ≠ p.out → fs g = files g := by
  have hlen : (setting e p).srcs.length < 500 := Nat.lt_of_le_of_lt (List.length_filter_le _ _) hn
  obtain ⟨st', w, h1, h2, h3⟩ := maps_ok (e := e) (p := p)
    (st := (⟨some p.cmap, files, fun _ => none, par⟩ : St φ ν ι π).write p.out (if p.copyall then C else fresh true))
    (F := if p.copyall then C else fresh true) hd rfl (by simp only [St.write, if_true]) hlen
  refine ⟨st'.files, _, ?_, h3, ?_, ?_⟩
  · rw [run_start hw hC, output_other hw hC hne]
    simp only [h1]
  · have hst : ∀ n, img (setting e p)
        ((⟨some p.cmap, files, fun _ => none, par⟩ : St φ ν ι π).write p.out (if p.copyall then C else fresh true)) n =
        match C.map n with | some i => i | none => e.own n := by
      intro n
      simp only [img, St.stored, St.write, if_neg (Ne.symm hne), hC]
      rfl
    refine ⟨fun h => by simp [h, fresh], fun h => by simp [h], ?_, ?_, ?_⟩
    · intro n i ha hi
      simp only [if_pos (mem_sources.mpr ha), hst, hi]
      cases p.copyall <;> simp [hi, fresh, blank]
    · intro n ha hi
      simp only [if_pos (mem_sources.mpr ha), hst, hi]
      cases p.copyall <;> simp [hi, fresh, blank]
    · intro n ha
      simp only [if_neg (fun h => ha (mem_sources.mp h))]
      cases p.copyall <;> simp [fresh, blank]
  · intro g hg
    rw [h2 g hg]
    simp only [St.write, if_neg hg]

/-- A counts map without source maps: every map of the output is the computed one. -/
theorem C161_computed {C : File ν ι π} (hd : e.srcs.Nodup) (hw : Writable p files) (hC : files p.cmap = some C)
    (hne : p.out ≠ p.cmap) (hn : e.srcs.length < 500) (hcnt : C.counts = true) (hmap : ∀ n, C.map n = none) :
    ∃ fs F, run e p noneName self true par files = (.done, fs) ∧ fs p.out = some F ∧ Computed e p F ∧
      ∀ n, ¬ Asked e p n → F.map n = none := by
  obtain ⟨fs, F, h1, h2, ⟨t1, t2, t3, t4, t5⟩, h4⟩ := C161_maps_partial (noneName := noneName) (self := self) (par := par)
    hd hw hC hne hn
  refine ⟨fs, F, h1, h2, ⟨?_, fun n ha => t4 n ha (hmap n)⟩, ?_⟩
  · cases hca : p.copyall
    · exact t1 hca
    · rw [t2 hca, hcnt]
  · intro n ha
    rw [t5 n ha, hmap]
    simp

/-- A map in the file of the counts map is taken even if it is not that of the source as it is now in the
model, for instance because the source was moved: the run ends without an error. -/
theorem C161_stale_violates {C : File ν ι π} {n : ν} {i : ι} (hd : e.srcs.Nodup) (hw : Writable p files) (hC : files p.cmap = some C)
    (hne : p.out ≠ p.cmap) (hn : e.srcs.length < 500) (ha : Asked e p n) (hi : C.map n = some i) (hold : i ≠ e.own n) :
    ∃ fs F, run e p noneName self true par files = (.done, fs) ∧ fs p.out = some F ∧ F.map n = some i ∧ ¬ Computed e p F := by
  obtain ⟨fs, F, h1, h2, ⟨t1, t2, t3, t4, t5⟩, h4⟩ := C161_maps_partial (noneName := noneName) (self := self) (par := par)
    hd hw hC hne hn
  refine ⟨fs, F, h1, h2, t3 n i ha hi, fun hc => hold ?_⟩
  exact Option.some.inj ((t3 n i ha hi).symm.trans (hc.2 n ha))

/-- With 500 sources or more the output has none of the maps, and the run ends without an error. -/
theorem C161_many_violates {C : File ν ι π} (hd : e.srcs.Nodup) (hw : Writable p files) (hC : files p.cmap = some C)
    (hne : p.out ≠ p.cmap) (hca : p.copyall = false) (hpt : p.ptsrc = true) (hs : ∀ k, e.split p.out k ≠ p.out)
    (hn : 500 ≤ e.srcs.length) :
    ∃ fs F, run e p noneName self true par files = (.done, fs) ∧ fs p.out = some F ∧ (∀ n, F.map n = none) ∧ ¬ Computed e p F := by
  have hsrc : (setting e p).srcs = e.srcs := by
    simp [setting, sources, hpt]
  obtain ⟨st', w, h1, h2⟩ := maps_many (e := e) (p := p)
    (st := (⟨some p.cmap, files, fun _ => none, par⟩ : St φ ν ι π).write p.out (if p.copyall then C else fresh true))
    (F := if p.copyall then C else fresh true) hd hs rfl (by simp only [St.write, if_true]) (by rw [hsrc]; exact hn)
  have hnone : ∀ n : ν, (if p.copyall then C else fresh true).map n = none := by
    intro n
    simp [hca, fresh, blank]
  refine ⟨st'.files, _, ?_, h2, hnone, ?_⟩
  · rw [run_start hw hC, output_other hw hC hne]
    simp only [h1]
  · intro hc
    have hpos : 0 < e.srcs.length := by omega
    have := hc.2 (e.srcs[0]'hpos) ⟨List.getElem_mem hpos, .inl hpt⟩
    simp only [hnone] at this
    cases this

/-- If the output is the file of the counts map itself, the maps are computed anew and those of other
sources, which were in the file, are lost. -/
theorem C161_input_violates {C : File ν ι π} {n : ν} {i : ι} (hd : e.srcs.Nodup) (hcl : p.clobber = true) (hC : files p.cmap = some C)
    (heq : p.out = p.cmap) (hca : p.copyall = false) (hn : e.srcs.length < 500) (ha : ¬ Asked e p n) (hi : C.map n = some i) :
    ∃ fs F, run e p noneName self true par files = (.done, fs) ∧ fs p.cmap = some F ∧ Computed e p F ∧ F.map n = none := by
  have hlen : (setting e p).srcs.length < 500 := Nat.lt_of_le_of_lt (List.length_filter_le _ _) hn
  obtain ⟨st', w, h1, h2, h3⟩ := maps_ok (e := e) (p := p)
    (st := (⟨some p.cmap, files, fun _ => none, par⟩ : St φ ν ι π).write p.out (fresh true))
    (F := fresh true) hd rfl (by simp only [St.write, if_true]) hlen
  refine ⟨st'.files, _, ?_, heq ▸ h3, ⟨rfl, ?_⟩, ?_⟩
  · rw [run_start (.inl hcl) hC]
    simp only [output, hcl, hca, Bool.true_or, if_true, Bool.false_eq_true, if_false, h1]
  · intro m hm
    simp only [if_pos (mem_sources.mpr hm), img, St.stored, St.write, heq, if_true, fresh, blank]
    rfl
  · simp only [if_neg (fun h => ha (mem_sources.mp h)), fresh, blank]

/-- Two sources `1` (diffuse) and `2` (a point source), a counts map in file `0`, an output `9`. -/
def toyEnv : Env Nat Nat Nat Nat :=
  ⟨[1, 2], fun n => if n = 2 then .point else .diffuse, fun _ => false, fun n => 10 * n, fun _ _ _ => 0,
    true, true, false, none, fun f k => f + k + 1000, fun _ _ => 0⟩

/-- The file of the counts map has a map of source `1` and one of source `7`. -/
def toyFiles : Nat → Option (File Nat Nat Nat) := fun f =>
  if f = 0 then some ⟨true, none, none, [], fun n => if n = 1 then some 3 else if n = 7 then some 4 else none⟩ else none

example : toyEnv.srcs.Nodup ∧ Writable (⟨0, 9, false, false, true⟩ : Pars Nat) toyFiles ∧ toyEnv.srcs.length < 500 ∧
    Asked toyEnv ⟨0, 9, false, false, true⟩ 1 ∧ 3 ≠ toyEnv.own 1 ∧ ¬ Asked toyEnv ⟨0, 9, false, false, false⟩ 2 := by
  refine ⟨by decide, .inr rfl, by decide, ⟨by decide, .inl rfl⟩, by decide, ?_⟩
  rintro ⟨_, h⟩
  rcases h with h | h
  · cases h
  · exact h rfl

example : ((run toyEnv ⟨0, 9, false, true, true⟩ 99 none true 0 toyFiles).2 9).map (fun F => [1, 2, 7, 8].map F.map) =
    some [some 3, some 20, some 4, none] := by decide

example : ((run toyEnv ⟨0, 9, false, false, false⟩ 99 none true 0 toyFiles).2 9).map (fun F => [1, 2, 7, 8].map F.map) =
    some [some 3, none, none, none] := by decide

example : ¬ Writable (⟨0, 0, false, false, true⟩ : Pars Nat) toyFiles := by
  rintro (h | h) <;> cases h

example : 500 ≤ ({ toyEnv with srcs := List.range 600 } : Env Nat Nat Nat Nat).srcs.length ∧
    (∀ k, toyEnv.split 9 k ≠ 9) ∧ (List.range 600).Nodup :=
  ⟨by simp, (fun k => by simp only [toyEnv]; omega), List.nodup_range⟩

end Verif.SrcApp
