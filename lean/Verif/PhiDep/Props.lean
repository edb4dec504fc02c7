import Verif.PhiDep.Model
import Verif.PhiDep.Spec
import Mathlib.Data.List.Nodup
import Mathlib.Tactic.Common
import Mathlib.Tactic.Linarith
import Mathlib.Tactic.Ring
set_option linter.unusedSimpArgs false
set_option linter.unusedVariables false
/-
C167: the azimuth in effective areas.
-/
namespace Verif.PhiDep
open Verif Spec

variable {A : Type}

theorem setFlag_same (f : Flags) (i : Nat) (b : Bool) : setFlag f i b i = b := if_pos rfl

theorem setFlag_back (f : Flags) (i : Nat) (b : Bool) : setFlag (setFlag f i b) i (f i) = f := by
  funext j
  unfold setFlag
  by_cases h : j = i
  · rw [if_pos h, h]
  · rw [if_neg h, if_neg h]

theorem allOff_apply : ∀ (is : List Nat) (f : Flags) (j : Nat), allOff is f j = if j ∈ is then false else f j
  | [], f, j => by simp [allOff]
  | i :: is, f, j => by
    rw [allOff, allOff_apply is]
    unfold setFlag
    by_cases h : j ∈ is
    · simp [h]
    · by_cases h2 : j = i
      · simp [h, h2]
      · simp [h, h2]

theorem pointLoop_flags (R : Irfs A) (phi : Bool) (a : A) : ∀ (is : List Nat) (f : Flags) (acc : ℝ),
    (pointLoop R phi a is f acc).2 = f
  | [], f, acc => rfl
  | i :: is, f, acc => by
    simp only [pointLoop]
    rw [setFlag_back]
    split
    · rfl
    · exact pointLoop_flags R phi a is f _

theorem pointLoop_value (R : Irfs A) (phi : Bool) (a : A) : ∀ (is : List Nat) (f : Flags) (acc : ℝ),
    (∀ i ∈ is, 1 / 10 ≤ R.area i phi a) → 0 ≤ acc + Spec.Sum R phi a is →
    (pointLoop R phi a is f acc).1 = acc + Spec.Sum R phi a is
  | [], f, acc, _, h => by
    simp only [pointLoop, Spec.Sum] at h ⊢
    rw [if_neg (by linarith)]
    ring
  | i :: is, f, acc, ha, h => by
    simp only [pointLoop]
    rw [setFlag_same, if_neg (not_lt.mpr (ha i List.mem_cons_self)),
      pointLoop_value R phi a is _ _ (fun j hj => ha j (List.mem_cons_of_mem _ hj))]
    · simp only [Spec.Sum]
      ring
    · simp only [Spec.Sum] at h
      linarith

theorem drmSave_eq : ∀ (is : List Nat) (f : Flags) (acc : List Bool), is.Nodup →
    drmSave is f acc = (acc ++ is.map f, allOff is f)
  | [], f, acc, _ => by simp [drmSave, allOff]
  | i :: is, f, acc, h => by
    obtain ⟨h1, h2⟩ := List.nodup_cons.mp h
    rw [drmSave, drmSave_eq is _ _ h2, allOff]
    congr 1
    rw [List.append_assoc]
    congr 1
    rw [List.map_cons]
    show f i :: is.map (setFlag f i false) = f i :: is.map f
    congr 1
    apply List.map_congr_left
    intro j hj
    unfold setFlag
    rw [if_neg]
    rintro rfl
    exact h1 hj

theorem drmRestore_eq (f : Flags) : ∀ (is pre : List Nat) (g : Flags),
    (∀ j, j ∉ is → g j = f j) →
    drmRestore ((pre ++ is).map f) is pre.length g = .ok f
  | [], pre, g, h => by
    simp only [drmRestore]
    congr 1
    funext j
    exact h j (by simp)
  | i :: is, pre, g, h => by
    have hv : vget ((pre ++ i :: is).map f) pre.length = .ok (f i) := by
      simp [vget]
    rw [drmRestore, hv, Res.bind_ok]
    have := drmRestore_eq f is (pre ++ [i]) (setFlag g i (f i)) (by
      intro j hj
      unfold setFlag
      by_cases h2 : j = i
      · rw [if_pos h2, h2]
      · rw [if_neg h2]
        exact h j (by simp [h2, hj]))
    simpa using this

theorem drmElement_eq (R : Irfs A) (hn : R.ids.Nodup) (dirs : List (ℝ × A)) (f : Flags) :
    drmElement R dirs f =
      .ok (dirs.map (fun d => drmExposure R (allOff R.ids f) d.1 d.2 R.ids), f) := by
  unfold drmElement
  rw [drmSave_eq _ _ _ hn]
  simp only [List.nil_append]
  have := drmRestore_eq f R.ids [] (allOff R.ids f) (by
    intro j hj
    rw [allOff_apply, if_neg hj])
  rw [List.nil_append, List.length_nil] at this
  rw [this, Res.bind_ok]

theorem drmExposure_off (R : Irfs A) {f : Flags} (t : ℝ) (a : A) : ∀ is : List Nat, (∀ i ∈ is, f i = false) →
    drmExposure R f t a is = Averaged R a is * t
  | [], _ => by simp [drmExposure, Averaged]
  | i :: is, h => by
    rw [drmExposure, drmExposure_off R t a is (fun j hj => h j (List.mem_cons_of_mem _ hj)),
      h i List.mem_cons_self, Averaged]
    ring

theorem cubeArea_mem (R : Irfs A) (f : Flags) {id : Nat} (a : A) : ∀ is : List Nat, id ∈ is →
    cubeArea R f id a is = R.area id (f id) a
  | [], h => by cases h
  | i :: is, h => by
    rw [cubeArea]
    by_cases hi : i = id
    · rw [if_pos hi, hi]
    · rw [if_neg hi]
      refine cubeArea_mem R f a is ?_
      rcases List.mem_cons.mp h with h | h
      · exact absurd h.symm hi
      · exact h

/-- The exposure of a point source uses the area that fits to its cube whatever happened before, and leaves
the response functions as they were. -/
theorem C167_point (R : Irfs A) (phi : Bool) (a : A) (f : Flags)
    (ha : ∀ i ∈ R.ids, 1 / 10 ≤ R.area i phi a) (hp : 0 ≤ Spec.Sum R phi a R.ids) :
    pointArea R phi a f = (Spec.Sum R phi a R.ids, f) := by
  unfold pointArea
  refine Prod.ext ?_ (pointLoop_flags R phi a _ _ _)
  rw [pointLoop_value R phi a R.ids f 0 ha (by linarith)]
  ring

/-- The response matrix is computed with averaged areas whatever happened before, and leaves the response
functions as they were. -/
theorem C167_matrix (R : Irfs A) (hn : R.ids.Nodup) (dirs : List (ℝ × A)) (f : Flags) :
    drmElement R dirs f = .ok (dirs.map (fun d => Averaged R d.2 R.ids * d.1), f) := by
  rw [drmElement_eq R hn]
  congr 2
  apply List.map_congr_left
  intro d _
  apply drmExposure_off
  intro i hi
  rw [allOff_apply, if_pos hi]

/-- After a program, response functions use the azimuth exactly if they did before and nothing made them
forget it. -/
theorem C167_history (R : Irfs A) (hn : R.ids.Nodup) : ∀ (h : List (Op A)) (f : Flags),
    ∃ g, run R h f = .ok g ∧ ∀ i ∈ R.ids, g i = true ↔ f i = true ∧ ¬ Forgot h
  | [], f => ⟨f, rfl, fun i _ => ⟨fun h => ⟨h, fun ⟨o, ho, _⟩ => by cases ho⟩, fun h => h.1⟩⟩
  | o :: os, f => by
    have key : ∃ g, step R f o = .ok g ∧
        ∀ i ∈ R.ids, g i = true ↔ f i = true ∧ ¬ (o = .ignore ∨ o = .cube false) := by
      cases o with
      | point phi a =>
        refine ⟨f, ?_, fun i _ => by simp⟩
        simp only [step]
        rw [show (pointArea R phi a f).2 = f from pointLoop_flags R phi a _ _ _]
      | drm dirs =>
        refine ⟨f, ?_, fun i _ => by simp⟩
        simp only [step]
        rw [drmElement_eq R hn]
        rfl
      | ignore =>
        refine ⟨_, rfl, fun i hi => ?_⟩
        rw [ignorePhi, if_pos rfl, allOff_apply, if_pos hi]
        simp
      | cube phi =>
        refine ⟨_, rfl, fun i hi => ?_⟩
        cases phi with
        | true => simp [makeArea]
        | false =>
          rw [makeArea, if_pos (by decide), allOff_apply, if_pos hi]
          simp
    obtain ⟨g, h1, h2⟩ := key
    obtain ⟨g', h3, h4⟩ := C167_history R hn os g
    refine ⟨g', by rw [run, h1, Res.bind_ok, h3], fun i hi => ?_⟩
    rw [h4 i hi, h2 i hi]
    unfold Forgot
    constructor
    · rintro ⟨⟨k1, k2⟩, k3⟩
      refine ⟨k1, ?_⟩
      rintro ⟨x, hx, hy⟩
      rcases List.mem_cons.mp hx with rfl | hx
      · exact k2 hy
      · exact k3 ⟨x, hx, hy⟩
    · rintro ⟨k1, k2⟩
      exact ⟨⟨k1, fun k => k2 ⟨o, List.mem_cons_self, k⟩⟩,
        fun ⟨x, hx, hy⟩ => k2 ⟨x, List.mem_cons_of_mem _ hx, hy⟩⟩

/-- If nothing made the response functions forget the azimuth, the areas for a livetime cube with azimuth use
it; those for a cube without never do. -/
theorem C167_cube_partial (R : Irfs A) (hn : R.ids.Nodup) (h : List (Op A)) {f : Flags}
    (hf : ∀ i ∈ R.ids, f i = true) {id : Nat} (hid : id ∈ R.ids) (a : A) (phi : Bool)
    (hh : phi = true → ¬ Forgot h) :
    ∃ g, run R (h ++ [.cube phi]) f = .ok g ∧ Wanted R id phi a (cubeArea R g id a R.ids) := by
  obtain ⟨g, h1, h2⟩ := C167_history R hn (h ++ [.cube phi]) f
  refine ⟨g, h1, ?_⟩
  unfold Wanted
  rw [cubeArea_mem R g a _ hid]
  congr 1
  have h3 := h2 id hid
  cases phi with
  | true =>
    refine h3.mpr ⟨hf id hid, ?_⟩
    rintro ⟨o, ho, hy⟩
    rcases List.mem_append.mp ho with ho | ho
    · exact hh rfl ⟨o, ho, hy⟩
    · rw [List.mem_singleton.mp ho] at hy
      rcases hy with hy | hy <;> cases hy
  | false =>
    cases hg : g id with
    | false => rfl
    | true =>
      exact absurd ⟨_, List.mem_append_right _ List.mem_cons_self, .inr rfl⟩ (h3.mp hg).2

/-- After the area of a cube without azimuth was made, a cube with azimuth gets the averaged area, and so do
events. -/
theorem C167_forgot_violates (R : Irfs A) (hn : R.ids.Nodup) (h : List (Op A)) (hc : Op.cube false ∈ h)
    (f : Flags) {id : Nat} (hid : id ∈ R.ids) {a : A} (ha : R.area id true a ≠ R.area id false a) :
    ∃ g, run R (h ++ [.cube true]) f = .ok g ∧ ¬ Wanted R id true a (cubeArea R g id a R.ids) ∧
      eventResponse R g id a = .ok (R.psf id a * R.area id false a) := by
  obtain ⟨g, h1, h2⟩ := C167_history R hn (h ++ [.cube true]) f
  have hg : g id = false := by
    cases hg : g id with
    | false => rfl
    | true =>
      exact absurd ⟨_, List.mem_append_left _ hc, .inr rfl⟩ ((h2 id hid).mp hg).2
  refine ⟨g, h1, ?_, ?_⟩
  · unfold Wanted
    rw [cubeArea_mem R g a _ hid, hg]
    exact fun h => ha h.symm
  · unfold eventResponse
    rw [if_pos hid, hg]

/-- An area that is in use meanwhile answers with the azimuth where it was asked before and without it
elsewhere. -/
theorem C167_mixed_violates (R : Irfs A) {f : Flags} {id : Nat} (hid : id ∈ R.ids) (hf : f id = true) {a b : A}
    (hab : b ≠ a) :
    let cache := (cached R f id (fun _ => none) a).2
    let g := makeArea R false f
    Wanted R id true a (cached R g id cache a).1 ∧ Wanted R id false b (cached R g id cache b).1 := by
  simp only [cached, if_pos, if_neg hab]
  constructor
  · unfold Wanted
    rw [cubeArea_mem R f a _ hid, hf]
  · unfold Wanted
    rw [cubeArea_mem R _ b _ hid, makeArea, if_pos (by decide), allOff_apply, if_pos hid]

/-- An event of a type without response functions is refused, and otherwise its response is area times
point-spread function. -/
theorem C167_event (R : Irfs A) (f : Flags) (id : Nat) (a : A) :
    (id ∉ R.ids → eventResponse R f id a = .throws) ∧
    (id ∈ R.ids → f id = true → eventResponse R f id a = .ok (R.psf id a * R.area id true a)) := by
  unfold eventResponse
  exact ⟨fun h => if_neg h, fun h hf => by rw [if_pos h, hf]⟩

/-- Front and back events; the area is `2` with the azimuth `true`, `1` on average. -/
noncomputable def exIrfs : Irfs Bool := ⟨[0, 1], fun _ phi a => if phi && a then 2 else 1, fun _ _ => 1, fun _ _ => 1⟩

example : pointArea exIrfs true true (fun _ => false) = (Spec.Sum exIrfs true true [0, 1], fun _ => false) :=
  C167_point exIrfs true true _ (by
    intro i _
    simp [exIrfs]
    norm_num) (by
    simp [Spec.Sum, exIrfs])

example : drmElement exIrfs [(3, true)] (fun _ => true) = .ok ([Averaged exIrfs true [0, 1] * 3], fun _ => true) :=
  C167_matrix exIrfs (by simp [exIrfs]) _ _

example : ∃ g, run exIrfs ([.drm [], .point false true] ++ [.cube true]) (fun _ => true) = .ok g ∧
    Wanted exIrfs 1 true true (cubeArea exIrfs g 1 true [0, 1]) :=
  C167_cube_partial exIrfs (by simp [exIrfs]) _ (fun _ _ => rfl) (by simp [exIrfs]) _ true (by
    rintro _ ⟨o, ho, hy⟩
    simp at ho
    rcases ho with rfl | rfl <;> rcases hy with hy | hy <;> cases hy)

example : ∃ g, run exIrfs ([.cube false] ++ [.cube true]) (fun _ => true) = .ok g ∧
    ¬ Wanted exIrfs 1 true true (cubeArea exIrfs g 1 true [0, 1]) ∧
    eventResponse exIrfs g 1 true = .ok (exIrfs.psf 1 true * exIrfs.area 1 false true) :=
  C167_forgot_violates exIrfs (by simp [exIrfs]) _ (by simp) _ (by simp [exIrfs]) (by simp [exIrfs])

end Verif.PhiDep
