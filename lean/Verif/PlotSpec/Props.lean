import Verif.PlotSpec.Lemmas
import Mathlib.Data.List.Forall2
import Mathlib.Algebra.BigOperators.Group.List.Basic
set_option linter.unusedSimpArgs false
set_option linter.unusedVariables false
/-
C166: the plot of counts spectra.
-/
namespace Verif.PlotSpec
open Verif Spec

variable {e c : Nat → ℝ} {n : Nat}

/-- A list is what its elements are. -/
theorem eq_tab (l : List ℝ) : l = tab l.length fun k => l.getD k 0 := by
  apply List.ext_getElem?
  intro k
  by_cases hk : k < l.length
  · rw [tab_get _ hk, List.getD_eq_getElem?_getD, List.getElem?_eq_getElem hk]
    rfl
  · rw [List.getElem?_eq_none (by omega), List.getElem?_eq_none (by rw [tab_length]; omega)]

/-- Everything up to the residuals. -/
theorem plot_eq (h : Bins e) (c : Nat → ℝ) {ms : List (Nat → ℝ)} (hne : ms ≠ []) :
    plot (tab (n + 1) e) (tab n c) (ms.map (tab n)) = (do
      let r ← residuals ((List.range n).map (obsPoint e c)) (tab n (dens e (Expected ms)))
      .ok ⟨(List.range n).map (obsPoint e c),
        ms.map (fun m => (List.range n).map fun k => (Real.sqrt (e k * e (k + 1)), dens e m k)),
        (List.range n).map (fun k => (Real.sqrt (e k * e (k + 1)), dens e (Expected ms) k)), r⟩) := by
  unfold plot
  have h0 : ¬ (tab (n + 1) e).length = 0 := by
    rw [tab_length]
    omega
  have h1 : (ms.map (tab n)).mapM (densities (tab (n + 1) e)) = .ok (ms.map fun m => tab n (dens e m)) := by
    have : ∀ l : List (Nat → ℝ), (l.map (tab n)).mapM (densities (tab (n + 1) e)) =
        .ok (l.map fun m => tab n (dens e m)) := by
      intro l
      induction l with
      | nil => rfl
      | cons m l ih =>
        rw [List.map_cons, List.mapM_cons, densities_ok h, Res.bind_ok, ih]
        rfl
    exact this ms
  have h2 : totals (ms.map fun m => tab n (dens e m)) = .ok (tab n (dens e (Expected ms))) := by
    have := totals_ok (n := n) (ms := ms.map (dens e)) (by simpa using hne)
    rw [List.map_map] at this
    rw [show (ms.map fun m => tab n (dens e m)) = ms.map (tab n ∘ dens e) from rfl, this]
    congr 2
    funext k
    exact Expected_dens e k ms
  have h3 : (ms.map fun m => tab n (dens e m)).mapM (line (tab (n + 1) e)) =
      .ok (ms.map (fun m => (List.range n).map fun k => (Real.sqrt (e k * e (k + 1)), dens e m k))) := by
    have : ∀ l : List (Nat → ℝ), (l.map fun m => tab n (dens e m)).mapM (line (tab (n + 1) e)) =
        .ok (l.map (fun m => (List.range n).map fun k => (Real.sqrt (e k * e (k + 1)), dens e m k))) := by
      intro l
      induction l with
      | nil => rfl
      | cons m l ih =>
        rw [List.map_cons, List.mapM_cons, line_ok, Res.bind_ok, ih]
        rfl
    exact this ms
  rw [if_neg h0, observed_ok h, Res.bind_ok, h1, Res.bind_ok, h2, Res.bind_ok, h3, Res.bind_ok, line_ok,
    Res.bind_ok]

theorem plot_ok (h : Bins e) (c : Nat → ℝ) {ms : List (Nat → ℝ)} (hne : ms ≠ [])
    (hm : ∀ k, k < n → Expected ms k ≠ 0) :
    plot (tab (n + 1) e) (tab n c) (ms.map (tab n)) =
      .ok ⟨(List.range n).map (obsPoint e c),
        ms.map (fun m => (List.range n).map fun k => (Real.sqrt (e k * e (k + 1)), dens e m k)),
        (List.range n).map (fun k => (Real.sqrt (e k * e (k + 1)), dens e (Expected ms) k)),
        (List.range n).map (resPoint e c (Expected ms))⟩ := by
  rw [plot_eq h c hne, residuals_ok h hm, Res.bind_ok]

/-- A range beside its images. -/
theorem forall2_map {β : Type} (f : Nat → β) (P : Nat → β → Prop) : ∀ l : List Nat, (∀ k, P k (f k)) →
    List.Forall₂ P l (l.map f)
  | [], _ => .nil
  | k :: l, h => .cons (h k) (forall2_map f P l h)

/-- Sources beside their images. -/
theorem forall2_src {α β : Type} (f : α → β) (P : α → β → Prop) : ∀ l : List α, (∀ k, P k (f k)) →
    List.Forall₂ P l (l.map f)
  | [], _ => .nil
  | k :: l, h => .cons (h k) (forall2_src f P l h)

/-- If sources are expected to give counts in every bin, the plot has one observed point per bin that stands
for its counts, for each source a line whose points stand for its expected counts, a line for their sum, and
the residual of each bin in units of the expected counts. -/
theorem C166_plot_partial (h : Bins e) (c : Nat → ℝ) {ms : List (Nat → ℝ)} (hne : ms ≠ [])
    (hm : ∀ k, k < n → Expected ms k ≠ 0) :
    ∃ p, plot ((List.range (n + 1)).map e) ((List.range n).map c) (ms.map fun m => (List.range n).map m) =
        .ok p ∧
      List.Forall₂ (Stands e c) (List.range n) p.observed ∧
      List.Forall₂ (fun m l => List.Forall₂ (Drawn e m) (List.range n) l) ms p.sources ∧
      List.Forall₂ (Drawn e (Expected ms)) (List.range n) p.total ∧
      p.residuals.length = n ∧
      ∀ k, k < n → ∃ r, p.residuals[k]? = some r ∧ Residual c (Expected ms) k r := by
  refine ⟨_, plot_ok h c hne hm, ?_, ?_, ?_, by simp, ?_⟩
  · apply forall2_map
    intro k
    have := width_ne h k
    refine ⟨mean_gt h k, mean_lt h k, ?_, ?_⟩
    · show c k / (e (k + 1) - e k) * (e (k + 1) - e k) = c k
      field_simp
    · show Real.sqrt (c k) / (e (k + 1) - e k) * (e (k + 1) - e k) = Real.sqrt (c k)
      field_simp
  · apply forall2_src
    intro m
    apply forall2_map
    intro k
    have := width_ne h k
    refine ⟨mean_gt h k, mean_lt h k, ?_⟩
    show m k / (e (k + 1) - e k) * (e (k + 1) - e k) = m k
    field_simp
  · apply forall2_map
    intro k
    have := width_ne h k
    refine ⟨mean_gt h k, mean_lt h k, ?_⟩
    show Expected ms k / (e (k + 1) - e k) * (e (k + 1) - e k) = Expected ms k
    field_simp
  · intro k hk
    refine ⟨resPoint e c (Expected ms) k, by simp [List.getElem?_range hk], ?_, ?_⟩
    · have h1 := width_ne h k
      have h2 := hm k hk
      show (c k / (e (k + 1) - e k) - Expected ms k / (e (k + 1) - e k)) /
        (Expected ms k / (e (k + 1) - e k)) = (c k - Expected ms k) / Expected ms k
      field_simp
    · have h1 := width_ne h k
      have h2 := hm k hk
      show Real.sqrt (c k) / (e (k + 1) - e k) / (Expected ms k / (e (k + 1) - e k)) =
        Real.sqrt (c k) / Expected ms k
      field_simp

/-- No exception, but an undefined element. -/
theorem mapM_ub {α β : Type} {f : α → Res β} : ∀ l : List α, (∀ a ∈ l, f a ≠ .throws) →
    (∃ a ∈ l, f a = .ub) → l.mapM f = .ub
  | [], _, h => by
    obtain ⟨a, ha, _⟩ := h
    cases ha
  | a :: l, ht, h => by
    rw [List.mapM_cons]
    cases ha : f a with
    | throws => exact absurd ha (ht a List.mem_cons_self)
    | ub => rfl
    | ok b =>
      obtain ⟨x, hx, hu⟩ := h
      rcases List.mem_cons.mp hx with rfl | hx
      · rw [ha] at hu
        cases hu
      · rw [Res.bind_ok, mapM_ub l (fun y hy => ht y (List.mem_cons_of_mem _ hy)) ⟨x, hx, hu⟩]
        rfl

/-- If in one bin no counts are expected, the residual there has no value. -/
theorem C166_empty_violates (h : Bins e) (c : Nat → ℝ) {ms : List (Nat → ℝ)} (hne : ms ≠ [])
    {k : Nat} (hk : k < n) (hm : Expected ms k = 0) :
    plot ((List.range (n + 1)).map e) ((List.range n).map c) (ms.map fun m => (List.range n).map m) = .ub := by
  have h1 := plot_eq (n := n) h c hne
  have h2 : residuals ((List.range n).map (obsPoint e c)) (tab n (dens e (Expected ms))) = .ub := by
    unfold residuals
    rw [tab_length]
    have key : ∀ j, j < n → ((List.range n).map (obsPoint e c))[j]? = some (obsPoint e c j) := by
      intro j hj
      simp [List.getElem?_range hj]
    apply mapM_ub
    · intro j hj
      have hj' := List.mem_range.mp hj
      rw [key j hj']
      simp only []
      rw [Res.bind_ok, vAt_tab _ hj', Res.bind_ok]
      unfold divide
      by_cases hz : dens e (Expected ms) j = 0
      · rw [if_pos hz]
        intro hx
        cases hx
      · rw [if_neg hz, Res.bind_ok, if_neg hz]
        intro hx
        cases hx
    · refine ⟨k, List.mem_range.mpr hk, ?_⟩
      rw [key k hk]
      simp only []
      rw [Res.bind_ok, vAt_tab _ hk, Res.bind_ok]
      unfold divide
      rw [if_pos (by unfold dens; rw [hm, zero_div])]
      rfl
  rw [h2] at h1
  exact h1

/-- Without a source there is no plot, but an exception. -/
theorem C166_nosource (h : Bins e) (c : Nat → ℝ) :
    plot ((List.range (n + 1)).map e) ((List.range n).map c) [] = .throws := by
  unfold plot
  rw [if_neg (by simp), show observed ((List.range (n + 1)).map e) ((List.range n).map c) = _ from observed_ok h c,
    Res.bind_ok]
  rfl

/-- A source with fewer counts than there are bins is read outside of its list. -/
theorem C166_short_violates (h : Bins e) (c m : Nat → ℝ) {j : Nat} (hj : j < n) :
    plot ((List.range (n + 1)).map e) ((List.range n).map c) [(List.range j).map m] = .ub := by
  have h1 : densities (tab (n + 1) e) (tab j m) = .ub := by
    unfold densities
    rw [tab_length, Nat.add_sub_cancel, mapM_ub (List.range n)]
    · rfl
    · intro k hk
      have hk' := List.mem_range.mp hk
      rw [width_ok hk', Res.bind_ok]
      unfold vget divide
      cases (tab j m)[k]? with
      | none => intro hx; cases hx
      | some a =>
        simp only []
        rw [Res.bind_ok, if_neg (width_ne h k)]
        intro hx
        cases hx
    · refine ⟨j, List.mem_range.mpr hj, ?_⟩
      rw [width_ok hj, Res.bind_ok]
      unfold vget
      rw [List.getElem?_eq_none (by rw [tab_length])]
      rfl
  unfold plot
  rw [if_neg (by simp), show observed ((List.range (n + 1)).map e) ((List.range n).map c) = _ from observed_ok h c,
    Res.bind_ok, List.mapM_cons, show densities ((List.range (n + 1)).map e) ((List.range j).map m) = _ from h1]
  rfl

/-- Without bins the lines are to be finer than the points; they are drawn at the same energies. -/
theorem C166_fine_violates (emin emax : ℝ) : lineBounds (pointBounds emin emax) = .ok (pointBounds emin emax) := by
  have hl : (pointBounds emin emax).length = 21 := by simp [pointBounds, setEbounds]
  have h0 : vget (pointBounds emin emax) 0 = .ok emin := by
    simp [vget, pointBounds, setEbounds]
  have h1 : vget (pointBounds emin emax) 20 = .ok emax := by
    simp [vget, pointBounds, setEbounds, List.getElem?_append]
  unfold lineBounds
  rw [h0, Res.bind_ok, hl, show 21 - 1 = 20 from rfl, h1, Res.bind_ok]
  rfl

theorem ex_bins : Bins fun k : Nat => (k : ℝ) + 1 := by
  refine ⟨by norm_num, fun k => ?_⟩
  push_cast
  linarith

example : ∃ p, plot ((List.range (2 + 1)).map fun k : Nat => (k : ℝ) + 1) ((List.range 2).map fun _ => 4)
    ([fun _ => 3, fun k : Nat => (k : ℝ)].map fun m => (List.range 2).map m) = .ok p := by
  obtain ⟨p, h, _⟩ := C166_plot_partial (n := 2) ex_bins (fun _ => 4) (ms := [fun _ => 3, fun k : Nat => (k : ℝ)])
    (by simp) (fun k _ => by
      simp only [Expected]
      positivity)
  exact ⟨p, h⟩

example : plot ((List.range (2 + 1)).map fun k : Nat => (k : ℝ) + 1) ((List.range 2).map fun _ => 4)
    ([fun k : Nat => (k : ℝ)].map fun m => (List.range 2).map m) = .ub :=
  C166_empty_violates (n := 2) ex_bins (fun _ => 4) (by simp) (k := 0) (by omega) (by simp [Expected])

example : plot ((List.range (2 + 1)).map fun k : Nat => (k : ℝ) + 1) ((List.range 2).map fun _ => 4)
    [(List.range 1).map fun _ => 7] = .ub :=
  C166_short_violates (n := 2) ex_bins (fun _ => 4) (fun _ => 7) (by omega)

end Verif.PlotSpec
