import Verif.DiffRsp.Lemmas2
import Mathlib.Tactic.NormNum
/-
C104: responses in event files.
-/
set_option linter.unusedSimpArgs false
set_option linter.unusedVariables false
namespace Verif.DiffRsp
open Verif

/-! ### Hypotheses -/

/-- A run whose sources have distinct components, without colons, and which asks for a class that
exists. -/
structure Good (base : Cfg → Name) (c : Cfg) : Prop where
  irf : Spec.Base c.irf (base c)
  dist : (c.srcs.map fun x => Spec.component (base c) x.name).Nodup
  colon : ∀ x ∈ c.srcs, ':' ∉ Spec.component (base c) x.name
  cls : c.old = true ∨ ∀ b, c.cls = some b → b < 32

/-- No name in the file has a colon. -/
def Plain (f : EvFile) : Prop := ∀ n ∈ f.keys, ':' ∉ n

/-- Two files have the same rows. -/
def SameRows (f f' : EvFile) : Prop := f'.nrow = f.nrow ∧ f'.ev = f.ev

/-- The file after the run: what it held stays, the other components of the model are added. -/
def Updated (base : Cfg → Name) (c : Cfg) (f f' : EvFile) : Prop :=
  SameRows f f' ∧ ∀ n, n ≠ noName → ∀ j < f.nrow, ∀ v,
    (Spec.Stored f' n j v ↔ Spec.Stored f n j v ∨
      ((¬ ∃ w, Spec.Stored f n j w) ∧
        ∃ x ∈ c.srcs, Spec.component (base c) x.name = n ∧ v = Spec.value c x (f.ev j)))

theorem Good.fine {base : Cfg → Name} {c : Cfg} (h : Good base c) : Fine c := by
  refine ⟨?_, ?_⟩
  · rw [show (c.srcs.map fun x => compName c.irf x.name) =
      c.srcs.map fun x => Spec.component (base c) x.name from List.map_congr_left fun x _ => comp_eq h.irf _]
    exact h.dist
  · unfold target
    rcases h.cls with ho | hb
    · exact ⟨_, by rw [if_pos ho]⟩
    · cases ho : c.old with
      | true => exact ⟨_, if_pos rfl⟩
      | false =>
        cases hc : c.cls with
        | none => exact ⟨none, by simp⟩
        | some b =>
          have := hb b hc
          refine ⟨some (1 <<< b), ?_⟩
          simp only [Bool.false_eq_true, if_false]
          rw [if_neg (by omega), if_neg (by omega)]

theorem alt_colon (irf src : Name) : ':' ∈ altName irf src :=
  List.mem_map.2 ⟨':', by simp, by decide⟩

theorem key_real {real : List Name} {k i : Nat} {n : Name} (hn : n ≠ noName) :
    (real ++ List.replicate k noName)[i]? = some n ↔ real[i]? = some n := by
  constructor
  · intro h
    by_cases hi : i < real.length
    · rwa [List.getElem?_append_left hi] at h
    · rw [List.getElem?_append_right (by omega)] at h
      exact absurd (List.mem_replicate.1 (List.mem_of_getElem? h)).2 hn
  · exact get_prefix (List.prefix_append _ _)

theorem Done.updated {base : Cfg → Name} {c : Cfg} (hg : Good base c) {f f' : EvFile} {real : List Name} {k : Nat}
    (h : f.keys = real ++ List.replicate k noName) (hr : real.Nodup) (hz : noName ∉ real)
    (hc : ∀ i < f.keys.length, (f.cols i).isSome) (d : Done c real f f') : Updated base c f f' := by
  refine ⟨⟨d.nrow, d.ev⟩, fun n hn j hj v => ?_⟩
  obtain ⟨k', hk'⟩ := d.keys
  have hs : ∀ w, Spec.Stored f n j w ↔ ∃ (i : Nat) (a : Nat → ℝ), real[i]? = some n ∧ f.cols i = some a ∧ a j = w := by
    intro w
    unfold Spec.Stored
    rw [h]
    simp only [key_real hn]
  have hs' : Spec.Stored f' n j v ↔
      ∃ (i : Nat) (b : Nat → ℝ), (after c real)[i]? = some n ∧ f'.cols i = some b ∧ b j = v := by
    unfold Spec.Stored
    rw [hk']
    simp only [key_real hn]
  rw [hs', hs]
  by_cases hm : n ∈ real
  · obtain ⟨i, hi, he⟩ := List.mem_iff_getElem.1 hm
    have hgi : real[i]? = some n := by rw [List.getElem?_eq_getElem hi, he]
    have hgi' := get_prefix (after_prefix c real) hgi
    obtain ⟨a, ha⟩ := Option.isSome_iff_exists.1 (hc i (by rw [h]; simp; omega))
    obtain ⟨b, hb⟩ := Option.isSome_iff_exists.1 (d.cols i (by
      rw [hk']
      have := (List.getElem?_eq_some_iff.1 hgi').1
      simp
      omega))
    have hab := d.keep i n a b hgi ha hb
    have hex : ∃ w, Spec.Stored f n j w := ⟨a j, (hs _).2 ⟨i, a, hgi, ha, rfl⟩⟩
    constructor
    · rintro ⟨i', b', h1, h2, h3⟩
      have : i' = i := get_inj (after_nodup c hr) h1 hgi'
      subst this
      rw [hb] at h2
      cases h2
      exact Or.inl ⟨i', a, hgi, ha, by rw [← h3, hab]⟩
    · rintro (⟨i', a', h1, h2, h3⟩ | ⟨h1, -⟩)
      · have : i' = i := get_inj hr h1 hgi
        subst this
        rw [ha] at h2
        cases h2
        exact ⟨i', b, hgi', hb, by rw [hab, h3]⟩
      · exact absurd hex h1
  · have hno : ¬ ∃ w, Spec.Stored f n j w := by
      rintro ⟨w, hw⟩
      obtain ⟨i, a, h1, -⟩ := (hs w).1 hw
      exact hm (List.mem_of_getElem? h1)
    constructor
    · rintro ⟨i', b', h1, h2, h3⟩
      rcases (mem_after c).1 (List.mem_of_getElem? h1) with h' | ⟨x, hx, he⟩
      · exact absurd h' hm
      · refine Or.inr ⟨hno, x, hx, by rw [← comp_eq hg.irf]; exact he, ?_⟩
        rw [← h3]
        subst he
        exact d.new x hx hm i' b' h1 h2 j hj
    · rintro (⟨i', a', h1, -⟩ | ⟨-, x, hx, he, hv⟩)
      · exact absurd (List.mem_of_getElem? h1) hm
      · rw [← comp_eq hg.irf] at he
        subst he
        obtain ⟨-, hget⟩ := key_get ((mem_after c (real := real)).2 (Or.inr ⟨x, hx, rfl⟩))
        obtain ⟨b, hb⟩ := Option.isSome_iff_exists.1 (d.cols _ (by
          rw [hk']
          have := (List.getElem?_eq_some_iff.1 hget).1
          simp only [List.length_append, List.length_replicate]
          exact Nat.lt_of_lt_of_le this (Nat.le_add_right _ _)))
        exact ⟨_, b, hget, hb, by rw [hv]; exact d.new x hx hm _ b hget hb j hj⟩

theorem Done.tidy {c : Cfg} {f f' : EvFile} {real : List Name} (hr : real.Nodup) (hz : noName ∉ real)
    (d : Done c real f f') : Spec.Tidy f' := by
  obtain ⟨k', hk'⟩ := d.keys
  exact ⟨⟨after c real, k', hk', after_nodup c hr, after_none c hz⟩, d.cols⟩

theorem Done.plain {base : Cfg → Name} {c : Cfg} (hg : Good base c) {f f' : EvFile} {real : List Name} {k : Nat}
    (h : f.keys = real ++ List.replicate k noName) (hp : Plain f) (d : Done c real f f') : Plain f' := by
  obtain ⟨k', hk'⟩ := d.keys
  intro n hn
  rw [hk'] at hn
  rcases List.mem_append.1 hn with hn | hn
  · rcases (mem_after c).1 hn with hn | ⟨x, hx, rfl⟩
    · exact hp n (by rw [h]; exact List.mem_append_left _ hn)
    · rw [comp_eq hg.irf]
      exact hg.colon x hx
  · rw [(List.mem_replicate.1 hn).2]
    decide

/-! ### C104 -/

/-- **C104, reading.**  From a tidy file an analysis gets for each event what the file holds for the
component of the source; for components it does not hold the call fails. -/
theorem C104_reading_partial {irf base src : Name} (hb : Spec.Base irf base) {f : EvFile} (hf : Spec.Tidy f)
    {j : Nat} (hj : j < f.nrow) :
    (∀ v, Spec.Stored f (Spec.component base src) j v → reads irf f src j = .ok v) ∧
    ((¬ ∃ v, Spec.Stored f (Spec.component base src) j v) → reads irf f src j = .throws) := by
  obtain ⟨⟨real, k, h, hr, hz⟩, hc⟩ := hf
  obtain ⟨g, hg1, hg2, hg3⟩ := readEvents_tidy h hr hz hc
  have hn := comp_ne base src
  have e1 : reads irf f src j = response irf (g j) src := by
    rw [reads, hg1, Res.bind_ok, vget_lt _ _ (by simpa using hj), Res.bind_ok]
    simp
  have hlt : ∀ i n, real[i]? = some n → i < f.keys.length := by
    intro i n hi
    have := (List.getElem?_eq_some_iff.1 hi).1
    rw [h]
    simp
    omega
  refine ⟨?_, ?_⟩
  · rintro v ⟨i, a, h1, h2, h3⟩
    rw [h, key_real hn] at h1
    rw [e1, response, comp_eq hb, hg2 j _ (List.mem_of_getElem? h1) i a h1 h2]
    simp only [h3]
  · intro hno
    rw [e1, response, comp_eq hb, hg3 j _ _ hn]
    intro hm
    obtain ⟨i, hi, he⟩ := List.mem_iff_getElem.1 hm
    have hgi : real[i]? = some (Spec.component base src) := by rw [List.getElem?_eq_getElem hi, he]
    obtain ⟨a, ha⟩ := Option.isSome_iff_exists.1 (hc i (hlt i _ hgi))
    exact hno ⟨a j, i, a, by rw [h, key_real hn]; exact hgi, ha, rfl⟩

/-- **C104, several files.**  A run over files that hold the same components, in the same order: each
file keeps what it held and gets the other components of the model, row by row. -/
theorem C104_files_partial {base : Cfg → Name} {c : Cfg} (hg : Good base c) (real : List Name) (hr : real.Nodup)
    (hz : noName ∉ real) (fs : List EvFile)
    (hf : ∀ f ∈ fs, (∃ k, f.keys = real ++ List.replicate k noName) ∧ (∀ i < f.keys.length, (f.cols i).isSome) ∧
      Plain f) :
    ∃ fs', run c fs = .ok fs' ∧
      List.Forall₂ (fun f f' => Spec.Tidy f' ∧ Plain f' ∧ Updated base c f f') fs fs' := by
  have key1 : ∀ (fs : List EvFile) (t : Tool), (∀ f ∈ fs, (∃ k, f.keys = real ++ List.replicate k noName) ∧
      (∀ i < f.keys.length, (f.cols i).isSome) ∧ Plain f) →
      (t.names = [] ∨ t.names = after c real) → (c.clobber = true → t.ndif = 0) →
      ∃ fs', files c t fs = .ok fs' ∧
        List.Forall₂ (fun f f' => Spec.Tidy f' ∧ Plain f' ∧ Updated base c f f') fs fs' := by
    intro fs
    induction fs with
    | nil => intro t _ _ _; exact ⟨[], rfl, List.Forall₂.nil⟩
    | cons f fs ih =>
      intro t hf ht hd
      obtain ⟨⟨k, h⟩, hc, hp⟩ := hf f List.mem_cons_self
      obtain ⟨t', f', p1, p2, p3, p4⟩ := process_ok hg.fine h hr hz hc
        (fun x _ hm => hp _ hm (alt_colon _ _)) ht hd
      obtain ⟨fs', q1, q2⟩ := ih t' (fun f hm => hf f (List.mem_cons_of_mem _ hm)) p3 p4
      refine ⟨f' :: fs', ?_, List.Forall₂.cons ⟨p2.tidy hr hz, p2.plain hg h hp, p2.updated hg h hr hz hc⟩ q2⟩
      rw [files, p1, Res.bind_ok]
      simp only [q1, Res.bind_ok]
  exact key1 fs ⟨[], 0⟩ hf (Or.inl rfl) (fun _ => rfl)

/-- **C104, one file.**  A run on a tidy file leaves it tidy; the file keeps what it held and gets the
other components of the model. -/
theorem C104_run_partial {base : Cfg → Name} {c : Cfg} (hg : Good base c) {f : EvFile} (hf : Spec.Tidy f)
    (hp : Plain f) :
    ∃ f', run c [f] = .ok [f'] ∧ Spec.Tidy f' ∧ Plain f' ∧ Updated base c f f' := by
  obtain ⟨⟨real, k, h, hr, hz⟩, hc⟩ := hf
  obtain ⟨fs', h1, h2⟩ := C104_files_partial hg real hr hz [f] (by
    intro f' hf'
    rw [List.mem_singleton.1 hf']
    exact ⟨⟨k, h⟩, hc, hp⟩)
  cases h2 with
  | cons ha hb =>
    cases hb
    exact ⟨_, h1, ha⟩

/-- **C104, histories.**  After any sequence of runs on a tidy file, an analysis gets for each source and
event: what the file held at first if it held the component, else the value from the first run whose
model had the component; if there is none the call fails. -/
theorem C104_history_partial (base : Cfg → Name) (cs : List Cfg) (hg : ∀ c ∈ cs, Good base c) {f : EvFile}
    (hf : Spec.Tidy f) (hp : Plain f) :
    ∃ f', runs cs f = .ok f' ∧ SameRows f f' ∧ Spec.Tidy f' ∧
      ∀ {irf b : Name}, Spec.Base irf b → ∀ src, ∀ j < f.nrow,
        (∀ v, Spec.Stored f (Spec.component b src) j v → reads irf f' src j = .ok v) ∧
        ((¬ ∃ v, Spec.Stored f (Spec.component b src) j v) →
          reads irf f' src j = match Spec.first base cs (Spec.component b src) (f.ev j) with
            | some v => .ok v
            | none => .throws) := by
  have key1 : ∀ (cs : List Cfg), (∀ c ∈ cs, Good base c) → ∀ f : EvFile, Spec.Tidy f → Plain f →
      ∃ f', runs cs f = .ok f' ∧ SameRows f f' ∧ Spec.Tidy f' ∧ ∀ n, n ≠ noName → ∀ j < f.nrow, ∀ v,
        (Spec.Stored f' n j v ↔ Spec.Stored f n j v ∨
          ((¬ ∃ w, Spec.Stored f n j w) ∧ Spec.first base cs n (f.ev j) = some v)) := by
    intro cs
    induction cs with
    | nil =>
      intro _ f hf _
      refine ⟨f, rfl, ⟨rfl, rfl⟩, hf, fun n _ j _ v => ?_⟩
      simp [Spec.first]
    | cons c cs ih =>
      intro hg f hf hp
      obtain ⟨f1, r1, r2, r3, ⟨r4, r5⟩, r6⟩ := C104_run_partial (hg c List.mem_cons_self) hf hp
      obtain ⟨f', q1, ⟨q2, q3⟩, q4, q5⟩ := ih (fun c hm => hg c (List.mem_cons_of_mem _ hm)) f1 r2 r3
      refine ⟨f', ?_, ⟨by rw [q2, r4], by rw [q3, r5]⟩, q4, fun n hn j hj v => ?_⟩
      · rw [runs, r1, Res.bind_ok, vget_lt _ _ (by simp), Res.bind_ok]
        exact q1
      · have h1 := r6 n hn j hj
        rw [q5 n hn j (by rw [r4]; exact hj) v, r5]
        rw [Spec.first]
        cases hfind : c.srcs.find? fun x => decide (Spec.component (base c) x.name = n) with
        | some x =>
          have hx := List.mem_of_find?_eq_some hfind
          have hxn : Spec.component (base c) x.name = n := by
            simpa using List.find?_some hfind
          have huniq : ∀ y ∈ c.srcs, Spec.component (base c) y.name = n → y = x := by
            intro y hy hyn
            exact List.inj_on_of_nodup_map (hg c List.mem_cons_self).dist hy hx (by rw [hyn, hxn])
          by_cases hex : ∃ w, Spec.Stored f n j w
          · obtain ⟨w, hw⟩ := hex
            have hw1 := (h1 w).2 (Or.inl hw)
            rw [h1 v]
            constructor
            · rintro ((h | ⟨h, _⟩) | ⟨h, _⟩)
              · exact Or.inl h
              · exact absurd ⟨w, hw⟩ h
              · exact absurd ⟨w, hw1⟩ h
            · rintro (h | ⟨h, _⟩)
              · exact Or.inl (Or.inl h)
              · exact absurd ⟨w, hw⟩ h
          · have hv1 := (h1 (Spec.value c x (f.ev j))).2 (Or.inr ⟨hex, x, hx, hxn, rfl⟩)
            rw [h1 v]
            constructor
            · rintro ((h | ⟨_, y, hy, hyn, hv⟩) | ⟨h, _⟩)
              · exact Or.inl h
              · rw [huniq y hy hyn] at hv
                exact Or.inr ⟨hex, by rw [hv]⟩
              · exact absurd ⟨_, hv1⟩ h
            · rintro (h | ⟨_, h⟩)
              · exact Or.inl (Or.inl h)
              · exact Or.inl (Or.inr ⟨hex, x, hx, hxn, (Option.some.inj h).symm⟩)
        | none =>
          have hno : ∀ y ∈ c.srcs, Spec.component (base c) y.name ≠ n := by
            intro y hy
            simpa using List.find?_eq_none.1 hfind y hy
          have h1' : ∀ w, Spec.Stored f1 n j w ↔ Spec.Stored f n j w := by
            intro w
            rw [h1 w]
            constructor
            · rintro (h | ⟨_, y, hy, hyn, _⟩)
              · exact h
              · exact absurd hyn (hno y hy)
            · exact Or.inl
          simp only [h1']
  obtain ⟨f', h1, h2, h3, h4⟩ := key1 cs hg f hf hp
  refine ⟨f', h1, h2, h3, fun hb src j hj => ?_⟩
  have hj' : j < f'.nrow := by rw [h2.1]; exact hj
  obtain ⟨ra, rb⟩ := C104_reading_partial (src := src) hb h3 hj'
  refine ⟨fun v hv => ra v ((h4 _ (comp_ne _ _) j hj v).2 (Or.inl hv)), fun hno => ?_⟩
  cases hfirst : Spec.first base cs (Spec.component _ src) (f.ev j) with
  | some v => exact ra v ((h4 _ (comp_ne _ _) j hj v).2 (Or.inr ⟨hno, hfirst⟩))
  | none =>
    refine rb ?_
    rintro ⟨v, hv⟩
    rcases (h4 _ (comp_ne _ _) j hj v).1 hv with h | ⟨_, h⟩
    · exact hno ⟨v, h⟩
    · rw [hfirst] at h
      cases h

/-! ### Examples -/

/-- Response functions in the examples. -/
def irf0 : Name := "P8::FRONT".toList

/-- A source whose response is the same for all events. -/
def src0 (name : String) (v : ℝ) : Src := ⟨name.toList, fun _ => v⟩

/-- A run without a cut on classes. -/
def cfg0 (srcs : List Src) (clobber : Bool) : Cfg := ⟨irf0, srcs, clobber, false, 0, none⟩

/-- A file of one event with two unused columns. -/
def fresh0 : EvFile := ⟨[noName, noName], fun i => if i < 2 then some fun _ => 0 else none, 1, fun j => ⟨j, 1⟩⟩

theorem base0 : Spec.Base irf0 "P8".toList := ⟨by decide, Or.inr ⟨"FRONT".toList, by decide⟩⟩

theorem tidy0 : Spec.Tidy fresh0 ∧ Plain fresh0 := by
  refine ⟨⟨⟨[], 2, rfl, by simp, by simp⟩, ?_⟩, ?_⟩
  · intro i hi
    have : i < 2 := hi
    show ((if i < 2 then some fun _ => 0 else none : Option (Nat → ℝ))).isSome = true
    rw [if_pos this]
    rfl
  · intro n hn
    simp only [fresh0, List.mem_cons, List.not_mem_nil, or_false, or_self] at hn
    rw [hn]
    decide

theorem good0 (v w : ℝ) (b : Bool) : Good (fun _ => "P8".toList) (cfg0 [src0 "Gal" v, src0 "Iso" w] b) := by
  refine ⟨base0, ?_, ?_, Or.inr fun b h => by cases h⟩
  · show [Spec.component "P8".toList "Gal".toList, Spec.component "P8".toList "Iso".toList].Nodup
    decide
  · intro x hx
    simp only [cfg0, List.mem_cons, List.not_mem_nil, or_false] at hx
    rcases hx with rfl | rfl
    · show ':' ∉ Spec.component "P8".toList "Gal".toList
      decide
    · show ':' ∉ Spec.component "P8".toList "Iso".toList
      decide

/-- C104: the hypotheses hold for a new file and two runs of a model with two sources; the second run,
with `clobber`, is after a change of the responses. -/
example : ∃ f', runs [cfg0 [src0 "Gal" 2, src0 "Iso" 3] false, cfg0 [src0 "Gal" 5, src0 "Iso" 7] true] fresh0 = .ok f' ∧
    SameRows fresh0 f' ∧ Spec.Tidy f' := by
  obtain ⟨f', h1, h2, h3, -⟩ := C104_history_partial (fun _ => "P8".toList)
    [cfg0 [src0 "Gal" 2, src0 "Iso" 3] false, cfg0 [src0 "Gal" 5, src0 "Iso" 7] true] (by
      intro c hc
      simp only [List.mem_cons, List.not_mem_nil, or_false] at hc
      rcases hc with rfl | rfl <;> exact good0 _ _ _) tidy0.1 tidy0.2
  exact ⟨f', h1, h2, h3⟩

end Verif.DiffRsp
