import Verif.SrcApp.Model
import Verif.SrcApp.Spec
import Mathlib.Tactic.Common
import Mathlib.Data.List.Nodup
set_option linter.unusedSectionVars false
set_option linter.unusedSimpArgs false
set_option linter.unusedVariables false
/-
Getting and saving maps.
-/
namespace Verif.SrcApp
open Verif Verif.MapFile

variable {φ ν ι π : Type} [DecidableEq φ] [DecidableEq ν]
variable {e : Env φ ν ι π}

/-- The image a source gets. -/
def img (e : Env φ ν ι π) (st : St φ ν ι π) (n : ν) : ι :=
  match st.stored st.cur n with
  | some i => i
  | none => e.own n

theorem newMap_some {st : St φ ν ι π} {n : ν} (hl : e.loadExisting = true) (hk : e.computePoint = true ∨ e.kind n ≠ .point) :
    ∃ f l, newMap e st n = some ⟨some (img e st n), f, l⟩ := by
  unfold newMap img
  rw [if_pos hl]
  cases h : st.stored st.cur n with
  | some i => exact ⟨st.cur, false, rfl⟩
  | none =>
    refine ⟨none, true, ?_⟩
    simp only
    rw [if_neg]
    · rfl
    · rintro ⟨h1, h2⟩
      rcases hk with hk | hk
      · rw [hk] at h2; cases h2
      · exact hk h1

/-- Getting the maps of sources that are not in memory. -/
theorem fetch_ok (hl : e.loadExisting = true) : ∀ (l : List ν) (st : St φ ν ι π), l.Nodup →
    (∀ n ∈ l, e.computePoint = true ∨ e.kind n ≠ .point) → (∀ n ∈ l, st.maps n = none) →
    ∃ st', fetch e l st = .ok st' ∧ st'.files = st.files ∧ st'.cur = st.cur ∧
      (∀ n ∈ l, ∃ f b, st'.maps n = some (some ⟨some (img e st n), f, b⟩)) ∧
      (∀ n, n ∉ l → st'.maps n = st.maps n)
  | [], st, _, _, _ => ⟨st, rfl, rfl, rfl, (fun n h => by cases h), fun n _ => rfl⟩
  | n :: l, st, hd, hk, hm => by
    have hn : st.maps n = none := hm n List.mem_cons_self
    obtain ⟨hnl, hd'⟩ := List.nodup_cons.mp hd
    obtain ⟨f, b, hf⟩ := newMap_some (st := st) (n := n) hl (hk n List.mem_cons_self)
    obtain ⟨st', h1, h2, h3, h4, h5⟩ := fetch_ok hl l (st.put n (newMap e st n)) hd'
      (fun m hm' => hk m (List.mem_cons_of_mem _ hm')) (fun m hm' => by
        have : m ≠ n := fun h => hnl (h ▸ hm')
        simp only [St.put, if_neg this]
        exact hm m (List.mem_cons_of_mem _ hm'))
    refine ⟨st', ?_, h2, h3, ?_, ?_⟩
    · rw [fetch]
      simp only [getMap, hn, Res.bind_ok]
      exact h1
    · intro m hm'
      rcases List.mem_cons.mp hm' with rfl | hm'
      · refine ⟨f, b, ?_⟩
        rw [h5 m hnl]
        simp only [St.put, if_pos, hf]
      · exact h4 m hm'
    · intro m hm'
      rw [h5 m (fun h => hm' (List.mem_cons_of_mem _ h))]
      have : m ≠ n := fun h => hm' (h ▸ List.mem_cons_self)
      simp only [St.put, if_neg this]

/-- Saving one map that is in memory. -/
theorem saveOne_ok {st : St φ ν ι π} {n : ν} {out : φ} {i : ι} {f : Option φ} {b : Bool}
    (hm : st.maps n = some (some ⟨some i, f, b⟩)) :
    ∃ st', saveOne e false st n out = .ok st' ∧ (∀ g, g ≠ out → st'.files g = st.files g) ∧
      (∀ m, m ≠ n → st'.maps m = st.maps m) ∧
      (∀ F, st.files out = some F → st'.files out = some { F with map := fun m => if m = n then (match F.map n with | some j => some j | none => some i) else F.map m }) := by
  unfold saveOne
  rw [if_pos (by rw [hm]; rfl)]
  by_cases hs : (st.stored (some out) n).isSome = true
  · rw [if_pos hs, if_neg (by simp)]
    refine ⟨st, rfl, fun _ _ => rfl, fun _ _ => rfl, ?_⟩
    intro F hF
    rw [hF]
    simp only [St.stored, hF] at hs
    obtain ⟨j, hj⟩ := Option.isSome_iff_exists.mp hs
    congr 1
    cases F with
    | mk a b c d mp =>
      simp only at hj ⊢
      rw [hj]
      congr 1
      funext m
      by_cases h : m = n
      · rw [if_pos h, h, hj]
      · rw [if_neg h]
  · rw [if_neg hs]
    have hset : setSource e st n ⟨some i, f, b⟩ = .ok ⟨some i, f, b⟩ := by
      unfold setSource
      rw [if_neg (by simp)]
    refine ⟨_, by simp only [writeMap, use, getMap, hm, hset, Res.bind_ok, deref, model]; rfl, ?_, ?_, ?_⟩
    · intro g hg
      simp only [St.write, St.put, if_neg hg]
    · intro m hm'
      simp only [St.write, St.put, if_neg hm']
    · intro F hF
      have hnone : F.map n = none := by
        simp only [St.stored, hF] at hs
        simpa using hs
      simp only [St.write, St.put, if_true, St.content, hF, hnone]

/-- The name of the output file stays the same. -/
theorem outFile_one {f : φ} {i k : Nat} : outFile e f false i (k, f) = (k, f) := by
  unfold outFile
  rw [if_neg (by simp)]

/-- Saving all maps in one file. -/
theorem saveLoop_ok {f : φ} {im : ν → ι} : ∀ (l : List ν) (i k : Nat) (st : St φ ν ι π) (F : File ν ι π), l.Nodup →
    (∀ n ∈ l, ∃ g b, st.maps n = some (some ⟨some (im n), g, b⟩)) → st.files f = some F →
    ∃ st', saveLoop e f false false l i (k, f) st = .ok st' ∧ (∀ g, g ≠ f → st'.files g = st.files g) ∧
      st'.files f = some { F with map := fun m => if m ∈ l then (match F.map m with | some j => some j | none => some (im m)) else F.map m }
  | [], i, k, st, F, _, _, hF => ⟨st, rfl, fun _ _ => rfl, by rw [hF]; simp⟩
  | n :: l, i, k, st, F, hd, hm, hF => by
    obtain ⟨hnl, hd'⟩ := List.nodup_cons.mp hd
    obtain ⟨g, b, hn⟩ := hm n List.mem_cons_self
    obtain ⟨st1, h1, h2, h3, h4⟩ := saveOne_ok (e := e) (out := f) hn
    obtain ⟨st', g1, g2, g3⟩ := saveLoop_ok l (i + 1) k st1 _ hd' (fun m hm' => by
        rw [h3 m (fun h => hnl (h ▸ hm'))]
        exact hm m (List.mem_cons_of_mem _ hm')) (h4 F hF)
    refine ⟨st', ?_, fun g hg => by rw [g2 g hg, h2 g hg], ?_⟩
    · rw [saveLoop]
      simp only [outFile_one, h1, Res.bind_ok]
      exact g1
    · rw [g3]
      congr 2
      funext m
      by_cases h : m = n
      · subst h
        simp only [if_neg hnl, if_pos List.mem_cons_self, if_true]
      · by_cases h' : m ∈ l
        · simp only [if_pos h', if_pos (List.mem_cons_of_mem _ h'), if_neg h]
        · rw [if_neg h']
          simp only [if_neg h]
          rw [if_neg]
          intro hc
          rcases List.mem_cons.mp hc with hc | hc
          · exact h hc
          · exact h' hc

/-- With many sources the maps go elsewhere. -/
theorem saveLoop_many {f : φ} {im : ν → ι} (hs : ∀ k, e.split f k ≠ f) : ∀ (l : List ν) (i : Nat) (s : Nat × φ)
    (st : St φ ν ι π), l.Nodup → (∀ n ∈ l, ∃ g b, st.maps n = some (some ⟨some (im n), g, b⟩)) →
    (i % 500 = 0 ∨ s.2 ≠ f) →
    ∃ st', saveLoop e f true false l i s st = .ok st' ∧ st'.files f = st.files f
  | [], i, s, st, _, _, _ => ⟨st, rfl, rfl⟩
  | n :: l, i, s, st, hd, hm, hi => by
    obtain ⟨hnl, hd'⟩ := List.nodup_cons.mp hd
    obtain ⟨g, b, hn⟩ := hm n List.mem_cons_self
    have ho : (outFile e f true i s).2 ≠ f := by
      unfold outFile
      by_cases h : i % 500 = 0
      · rw [if_pos ⟨rfl, h⟩]
        exact hs _
      · rw [if_neg (fun hc => h hc.2)]
        exact hi.resolve_left h
    obtain ⟨st1, h1, h2, h3, h4⟩ := saveOne_ok (e := e) (out := (outFile e f true i s).2) hn
    obtain ⟨st', g1, g2⟩ := saveLoop_many hs l (i + 1) (outFile e f true i s) st1 hd' (fun m hm' => by
        rw [h3 m (fun h => hnl (h ▸ hm'))]
        exact hm m (List.mem_cons_of_mem _ hm')) (.inr ho)
    refine ⟨st', ?_, by rw [g2, h2 f (Ne.symm ho)]⟩
    rw [saveLoop]
    simp only [h1, Res.bind_ok]
    exact g1

/-- The sources of the run. -/
theorem mem_sources {p : Pars φ} {n : ν} : n ∈ (setting e p).srcs ↔ Spec.Asked e p n := by
  unfold setting sources Spec.Asked
  simp [List.mem_filter]

theorem setting_kind {p : Pars φ} : ∀ n ∈ (setting e p).srcs,
    (setting e p).computePoint = true ∨ (setting e p).kind n ≠ .point :=
  fun n hn => (mem_sources.mp hn).2

/-- The weights do not touch the maps. -/
theorem saveWeights_same (r : Bool) {st : St φ ν ι π} {f : φ} {F : File ν ι π} (hF : st.files f = some F) :
    (∀ g, g ≠ f → (saveWeights e r st f).files g = st.files g) ∧
    ∃ w, (saveWeights e r st f).files f = some { F with weights := w } := by
  unfold saveWeights
  cases hw : e.weights with
  | none => exact ⟨fun _ _ => rfl, F.weights, by rw [hF]⟩
  | some w =>
    simp only
    split
    · exact ⟨fun _ _ => rfl, F.weights, by rw [hF]⟩
    · refine ⟨fun g hg => by simp only [St.write, if_neg hg], some w, ?_⟩
      simp only [St.write, if_true, St.content, hF]

/-- The maps of a run in a file that is there, for fewer than 500 sources. -/
theorem maps_ok {p : Pars φ} {st : St φ ν ι π} {F : File ν ι π} (hd : e.srcs.Nodup)
    (hm : st.maps = fun _ => none) (hF : st.files p.out = some F) (hn : (setting e p).srcs.length < 500) :
    ∃ st' w, maps e p st = .ok st' ∧ (∀ g, g ≠ p.out → st'.files g = st.files g) ∧
      st'.files p.out = some { F with weights := w, map := fun m => if m ∈ (setting e p).srcs then
        (match F.map m with | some j => some j | none => some (img (setting e p) st m)) else F.map m } := by
  have hd' : (setting e p).srcs.Nodup := hd.filter _
  obtain ⟨s1, h1, h2, h3, h4, h5⟩ := fetch_ok (e := setting e p) rfl (setting e p).srcs st hd' setting_kind
    (fun n _ => by rw [hm])
  obtain ⟨s2, g1, g2, g3⟩ := saveLoop_ok (e := setting e p) (f := p.out) (im := img (setting e p) st)
    (setting e p).srcs 0 0 { s1 with cur := some p.out } F hd' h4 (by simp only; rw [h2, hF])
  obtain ⟨k1, w, k2⟩ := saveWeights_same (e := setting e p) false g3
  refine ⟨_, w, ?_, ?_, k2⟩
  · unfold maps
    rw [h1]
    simp only [Res.bind_ok, save]
    rw [if_pos (by rw [h2, hF]; rfl)]
    simp only [saveRest]
    rw [show decide (499 < (setting e p).srcs.length) = false from decide_eq_false (by omega), g1]
    rfl
  · intro g hg
    rw [k1 g hg, g2 g hg]
    simp only
    rw [h2]

/-- The maps of a run with 500 sources or more. -/
theorem maps_many {p : Pars φ} {st : St φ ν ι π} {F : File ν ι π} (hd : e.srcs.Nodup) (hs : ∀ k, e.split p.out k ≠ p.out)
    (hm : st.maps = fun _ => none) (hF : st.files p.out = some F) (hn : 500 ≤ (setting e p).srcs.length) :
    ∃ st' w, maps e p st = .ok st' ∧ st'.files p.out = some { F with weights := w } := by
  have hd' : (setting e p).srcs.Nodup := hd.filter _
  obtain ⟨s1, h1, h2, h3, h4, h5⟩ := fetch_ok (e := setting e p) rfl (setting e p).srcs st hd' setting_kind
    (fun n _ => by rw [hm])
  obtain ⟨s2, g1, g2⟩ := saveLoop_many (e := setting e p) (f := p.out) (im := img (setting e p) st) hs
    (setting e p).srcs 0 (0, p.out) { s1 with cur := some p.out } hd' h4 (.inl rfl)
  have g3 : s2.files p.out = some F := by
    rw [g2]
    simp only
    rw [h2, hF]
  obtain ⟨k1, w, k2⟩ := saveWeights_same (e := setting e p) false g3
  refine ⟨_, w, ?_, k2⟩
  unfold maps
  rw [h1]
  simp only [Res.bind_ok, save]
  rw [if_pos (by rw [h2, hF]; rfl)]
  simp only [saveRest]
  rw [show decide (499 < (setting e p).srcs.length) = true from decide_eq_true (by omega), g1]
  rfl

end Verif.SrcApp
