import Verif.SpatConv.Lemmas
import Mathlib.Data.List.Forall2
set_option linter.unusedSimpArgs false
set_option linter.unusedVariables false
/-
C164: the map of a disk or a Gaussian.
-/
namespace Verif.SpatConv
open Verif Spec

variable {D : Type} {g : Geom}

/-- Results element by element. -/
theorem mapM_forall2 {α β : Type} {f : α → Res β} {P : α → β → Prop} : ∀ (l : List α),
    (∀ a ∈ l, ∃ b, f a = .ok b ∧ P a b) → ∃ bs, l.mapM f = .ok bs ∧ List.Forall₂ P l bs
  | [], _ => ⟨[], rfl, .nil⟩
  | a :: l, h => by
    obtain ⟨b, hb, hp⟩ := h a List.mem_cons_self
    obtain ⟨bs, h1, h2⟩ := mapM_forall2 l (fun x hx => h x (List.mem_cons_of_mem _ hx))
    exact ⟨b :: bs, by rw [List.mapM_cons, hb, Res.bind_ok, h1]; rfl, .cons hp h2⟩

/-- The exposure that is used. -/
def used (s : Src D) : Option (D → ℝ) → ℝ
  | some f => f s.mid
  | none => 1

theorem pixel_some {s : Src D} {expo : Option (D → ℝ)} {d : D} {v : ℝ} (h : response g s d = .ok v) :
    pixel g s expo (some d) = .ok (v * used s expo) := by
  simp only [pixel]
  rw [h, Res.bind_ok]
  cases expo <;> rfl

theorem pixel_close (h : Valid g) {s : Src D} {L : ℝ} (hs : Smooth s.resp L) (expo : Option (D → ℝ)) {d : D}
    (hd : Within g s d) : ∃ v, pixel g s expo (some d) = .ok v ∧
      Close s (used s expo) d (L * (2 / 3 * g.cmin)) v := by
  obtain ⟨i, h1, h2, h3⟩ := response_ok h hd
  refine ⟨_, pixel_some h3, ?_⟩
  unfold Close
  rw [← sub_mul, abs_mul]
  apply mul_le_mul_of_nonneg_right _ (abs_nonneg _)
  exact le_trans (interp_error hs (theta_nonneg h i) h1 h2)
    (mul_le_mul_of_nonneg_left (theta_gap h i) hs.1)

theorem pixel_linear (h : Valid g) {s : Src D} {a b : ℝ} (hs : ∀ t, s.resp t = a + b * t)
    (expo : Option (D → ℝ)) {d : D} (hd : Within g s d) :
    pixel g s expo (some d) = .ok (s.resp (s.angle d) * used s expo) := by
  obtain ⟨i, h1, h2, h3⟩ := response_ok h hd
  rw [pixel_some h3, hs, hs, hs]
  have : theta g (i + 1) - theta g i ≠ 0 := by
    have := theta_lt h i
    linarith
  congr 2
  field_simp
  ring

/-- The distances at which the response is computed start at `0`, increase, lie at most two thirds of a
pixel apart and end two pixels beyond the farthest pixel; there are as many values as distances. -/
theorem C164_grid {g : Geom} (h : Valid g) (s : Src D) :
    (thetas g)[0]? = some 0 ∧ (thetas g).getLast? = some (g.far + 2 * g.cmax) ∧
    (∀ (i : Nat) (a b : ℝ), (thetas g)[i]? = some a → (thetas g)[i + 1]? = some b → a < b ∧ b - a ≤ 2 / 3 * g.cmin) ∧
    ∀ (i : Nat) (a : ℝ), (thetas g)[i]? = some a → (values g s)[i]? = some (s.resp a) := by
  have key : ∀ (i : Nat) (a : ℝ), (thetas g)[i]? = some a → a = theta g i := by
    intro i a hi
    unfold thetas at hi
    rw [List.getElem?_map, Option.map_eq_some_iff] at hi
    obtain ⟨j, hj, e⟩ := hi
    rw [List.getElem?_eq_some_iff] at hj
    obtain ⟨_, hj⟩ := hj
    rw [List.getElem_range] at hj
    rw [← e, hj]
  refine ⟨?_, ?_, ?_, ?_⟩
  · unfold thetas
    simp [theta_zero]
  · unfold thetas
    rw [List.range_succ, List.map_append, List.map_singleton, List.getLast?_concat, theta_last h]
    rfl
  · intro i a b ha hb
    rw [key i a ha, key _ b hb]
    exact ⟨theta_lt h i, theta_gap h i⟩
  · intro i a ha
    unfold values
    rw [List.getElem?_map, ha]
    rfl

/-- Each pixel on the sky holds the response at its distance times the exposure at the middle of the source
(`1` without an exposure), up to the change of the response over two thirds of a pixel.  Pixels that are not
on the sky hold `0`, and the image has the shape of the map. -/
theorem C164_layer {g : Geom} (h : Valid g) {s : Src D} {L : ℝ} (hs : Smooth s.resp L)
    (expo : Option (D → ℝ)) (dirs : List (List (Option D)))
    (hd : ∀ r ∈ dirs, ∀ d, some d ∈ r → Within g s d) :
    ∃ img, convolve g s expo true dirs = .ok img ∧
      List.Forall₂ (List.Forall₂ fun o v => match o with
        | none => v = 0
        | some d => Close s (expo.elim 1 fun f => f s.mid) d
            (L * (2 / 3 * g.cmin)) v) dirs img := by
  unfold convolve
  rw [if_pos rfl]
  apply mapM_forall2
  intro r hr
  apply mapM_forall2
  intro o ho
  cases o with
  | none => exact ⟨0, rfl, rfl⟩
  | some d =>
    obtain ⟨v, h1, h2⟩ := pixel_close h hs expo (hd r hr d ho)
    refine ⟨v, h1, ?_⟩
    cases expo <;> exact h2

/-- A response that changes linearly with the distance is reproduced exactly. -/
theorem C164_linear {g : Geom} (h : Valid g) {s : Src D} {a b : ℝ} (hs : ∀ t, s.resp t = a + b * t)
    (f : D → ℝ) (dirs : List (List (Option D))) (hd : ∀ r ∈ dirs, ∀ d, some d ∈ r → Within g s d) :
    ∃ img, convolve g s (some f) true dirs = .ok img ∧
      List.Forall₂ (List.Forall₂ fun o v => match o with
        | none => v = 0
        | some d => v = (a + b * s.angle d) * f s.mid) dirs img := by
  unfold convolve
  rw [if_pos rfl]
  apply mapM_forall2
  intro r hr
  apply mapM_forall2
  intro o ho
  cases o with
  | none => exact ⟨0, rfl, rfl⟩
  | some d => exact ⟨_, pixel_linear h hs (some f) (hd r hr d ho), by rw [hs]; rfl⟩

/-- The counts of a pixel are not the response times the exposure there: where the exposure differs from
that at the middle of the source the counts are wrong. -/
theorem C164_exposure_violates {g : Geom} (h : Valid g) {s : Src D} {a b : ℝ}
    (hs : ∀ t, s.resp t = a + b * t) (f : D → ℝ) {d : D} (hd : Within g s d)
    (hr : s.resp (s.angle d) ≠ 0) (hf : f d ≠ f s.mid) :
    ∃ v, convolve g s (some f) true [[some d]] = .ok [[v]] ∧ ¬ Counts s f d v := by
  refine ⟨s.resp (s.angle d) * f s.mid, ?_, ?_⟩
  · unfold convolve
    rw [if_pos rfl, List.mapM_cons, List.mapM_cons, pixel_linear h hs (some f) hd]
    rfl
  · intro hc
    unfold Counts at hc
    exact hf (mul_left_cancel₀ hr hc).symm

/-- Far enough from the source nothing is added: beyond the last distance the counts are `0`. -/
theorem C164_beyond {g : Geom} (h : Valid g) {s : Src D} (expo : Option (D → ℝ)) {d : D}
    (hd : g.far + 2 * g.cmax < s.angle d) : convolve g s expo true [[some d]] = .ok [[0]] := by
  have h1 : response g s d = .ok 0 := by
    unfold response
    rw [if_pos]
    rw [theta_last h]
    exact hd
  unfold convolve
  rw [if_pos rfl, List.mapM_cons, List.mapM_cons, pixel_some h1, zero_mul]
  rfl

/-- Maps of such sources without convolution are refused. -/
theorem C164_unconvolved (g : Geom) (s : Src D) (expo : Option (D → ℝ)) (dirs : List (List (Option D))) :
    convolve g s expo false dirs = .throws := by
  unfold convolve
  rw [if_neg (by simp)]

/-- A map with pixels of one degree and a source whose response falls with the distance. -/
noncomputable def exGeom : Geom := ⟨1, 1, 3⟩
/-- The source; directions are distances. -/
noncomputable def exSrc : Src ℝ := ⟨fun t => 10 + (-1) * t, 0, fun d => d⟩

theorem ex_valid : Valid exGeom := by
  unfold Valid exGeom
  norm_num

theorem ex_smooth : Smooth exSrc.resp 1 := by
  refine ⟨by norm_num, ?_⟩
  intro a b _ _
  show |10 + -1 * a - (10 + -1 * b)| ≤ 1 * |a - b|
  rw [show 10 + -1 * a - (10 + -1 * b) = -(a - b) by ring, abs_neg, one_mul]

theorem ex_within : ∀ r ∈ [[none, some 2], [some 1, some (3 : ℝ)]], ∀ d, some d ∈ r → Within exGeom exSrc d := by
  intro r hr d hd
  simp only [List.mem_cons, List.mem_nil_iff, or_false] at hr
  unfold Within exSrc exGeom
  rcases hr with rfl | rfl <;> simp at hd
  · rw [hd]
    norm_num
  · rcases hd with hd | hd <;> rw [hd] <;> norm_num

example : ∃ img, convolve exGeom exSrc none true [[none, some 2], [some 1, some 3]] = .ok img := by
  obtain ⟨img, h, _⟩ := C164_layer ex_valid ex_smooth none _ ex_within
  exact ⟨img, h⟩

example : ∃ v, convolve exGeom exSrc (some fun d => 1 + d) true [[some 2]] = .ok [[v]] ∧
    ¬ Counts exSrc (fun d => 1 + d) 2 v := by
  refine C164_exposure_violates ex_valid (a := 10) (b := -1) (fun t => rfl) _ ?_ ?_ ?_
  · unfold Within exSrc exGeom
    norm_num
  · unfold exSrc
    norm_num
  · unfold exSrc
    norm_num

example : convolve exGeom exSrc none true [[some 6]] = .ok [[0]] :=
  C164_beyond ex_valid none (by unfold exGeom exSrc; norm_num)

end Verif.SpatConv
