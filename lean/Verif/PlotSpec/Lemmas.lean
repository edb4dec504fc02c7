import Verif.PlotSpec.Model
import Verif.PlotSpec.Spec
import Verif.Energy.Lemmas
import Mathlib.Tactic.Linarith
import Mathlib.Tactic.Ring
import Mathlib.Tactic.FieldSimp
import Mathlib.Tactic.NormNum
set_option linter.unusedSimpArgs false
set_option linter.unusedVariables false
/-
The parts of the plot.
-/
namespace Verif.PlotSpec
open Verif Spec

/-- A list given by its elements. -/
def tab (n : Nat) (f : Nat → ℝ) : List ℝ := (List.range n).map f

theorem tab_length (n : Nat) (f : Nat → ℝ) : (tab n f).length = n := by simp [tab]

theorem tab_get {n k : Nat} (f : Nat → ℝ) (h : k < n) : (tab n f)[k]? = some (f k) := by
  simp [tab, List.getElem?_range h]

theorem vAt_tab {n k : Nat} (f : Nat → ℝ) (h : k < n) : vAt (tab n f) k = .ok (f k) := by
  simp only [vAt]
  rw [tab_get f h]

theorem vget_tab {n k : Nat} (f : Nat → ℝ) (h : k < n) : vget (tab n f) k = .ok (f k) := by
  simp only [vget]
  rw [tab_get f h]

theorem divide_ok {x y : ℝ} (h : y ≠ 0) : divide x y = .ok (x / y) := by
  unfold divide
  rw [if_neg h]

variable {e c : Nat → ℝ} {n : Nat}

theorem bins_pos (h : Bins e) : ∀ k, 0 < e k
  | 0 => h.1
  | k + 1 => lt_trans (bins_pos h k) (h.2 k)

theorem width_ne (h : Bins e) (k : Nat) : e (k + 1) - e k ≠ 0 := by
  have := h.2 k
  linarith

theorem energy_ok {k : Nat} (hk : k < n) : energy (tab (n + 1) e) k = .ok (Real.sqrt (e k * e (k + 1))) := by
  unfold energy
  rw [vAt_tab e (by omega), Res.bind_ok, vAt_tab e (by omega), Res.bind_ok]

theorem width_ok {k : Nat} (hk : k < n) : width (tab (n + 1) e) k = .ok (e (k + 1) - e k) := by
  unfold width
  rw [vAt_tab e (by omega), Res.bind_ok, vAt_tab e (by omega), Res.bind_ok]

theorem mean_gt (h : Bins e) (k : Nat) : e k < Real.sqrt (e k * e (k + 1)) := by
  have h0 := bins_pos h k
  have h1 := h.2 k
  apply Real.lt_sqrt_of_sq_lt
  nlinarith

theorem mean_lt (h : Bins e) (k : Nat) : Real.sqrt (e k * e (k + 1)) < e (k + 1) := by
  have h0 := bins_pos h k
  have h1 := h.2 k
  rw [Real.sqrt_lt' (by linarith)]
  nlinarith

/-- An observed point. -/
noncomputable def obsPoint (e c : Nat → ℝ) (k : Nat) : Point :=
  ⟨Real.sqrt (e k * e (k + 1)), c k / (e (k + 1) - e k), Real.sqrt (c k) / (e (k + 1) - e k)⟩

theorem observed_ok (h : Bins e) (c : Nat → ℝ) :
    observed (tab (n + 1) e) (tab n c) = .ok ((List.range n).map (obsPoint e c)) := by
  unfold observed
  rw [tab_length, Nat.add_sub_cancel]
  apply mapM_ok
  intro k hk
  have hk' := List.mem_range.mp hk
  rw [energy_ok hk', Res.bind_ok, width_ok hk', Res.bind_ok, vAt_tab c hk', Res.bind_ok,
    divide_ok (width_ne h k), Res.bind_ok, divide_ok (width_ne h k), Res.bind_ok]
  rfl

/-- Counts per energy. -/
noncomputable def dens (e m : Nat → ℝ) (k : Nat) : ℝ := m k / (e (k + 1) - e k)

theorem densities_ok (h : Bins e) (m : Nat → ℝ) :
    densities (tab (n + 1) e) (tab n m) = .ok (tab n (dens e m)) := by
  unfold densities
  rw [tab_length, Nat.add_sub_cancel, mapM_ok _ (dens e m) (List.range n), Res.bind_ok]
  · rw [List.drop_of_length_le (by rw [tab_length]), List.append_nil]
    rfl
  · intro k hk
    have hk' := List.mem_range.mp hk
    rw [width_ok hk', Res.bind_ok, vget_tab m hk', Res.bind_ok, divide_ok (width_ne h k)]
    rfl

theorem line_ok (e y : Nat → ℝ) :
    line (tab (n + 1) e) (tab n y) = .ok ((List.range n).map fun k => (Real.sqrt (e k * e (k + 1)), y k)) := by
  unfold line
  rw [tab_length, Nat.add_sub_cancel]
  apply mapM_ok
  intro k hk
  have hk' := List.mem_range.mp hk
  rw [energy_ok hk', Res.bind_ok, vget_tab y hk', Res.bind_ok]

theorem addTo_ok (a b : Nat → ℝ) : addTo (tab n a) (tab n b) = .ok (tab n fun k => a k + b k) := by
  unfold addTo
  rw [tab_length]
  apply mapM_ok
  intro k hk
  have hk' := List.mem_range.mp hk
  rw [vAt_tab a hk', Res.bind_ok, vAt_tab b hk', Res.bind_ok]

theorem fold_ok : ∀ (ms : List (Nat → ℝ)) (a : Nat → ℝ),
    (ms.map (tab n)).foldlM addTo (tab n a) = .ok (tab n fun k => a k + Expected ms k)
  | [], a => by
    show Res.ok _ = _
    simp [Expected]
  | m :: ms, a => by
    rw [List.map_cons, List.foldlM_cons, addTo_ok, Res.bind_ok, fold_ok ms]
    congr 2
    funext k
    simp only [Expected]
    ring

theorem replicate_tab : List.replicate n (0 : ℝ) = tab n fun _ => 0 := by
  simp [tab]

theorem totals_ok {ms : List (Nat → ℝ)} (h : ms ≠ []) : totals (ms.map (tab n)) = .ok (tab n (Expected ms)) := by
  cases ms with
  | nil => exact absurd rfl h
  | cons m ms =>
    rw [List.map_cons]
    simp only [totals]
    rw [tab_length, replicate_tab, ← List.map_cons, fold_ok]
    simp

theorem Expected_dens (e : Nat → ℝ) (k : Nat) : ∀ ms : List (Nat → ℝ), Expected (ms.map (dens e)) k = dens e (Expected ms) k
  | [] => by simp [Expected, dens]
  | m :: ms => by
    simp only [List.map_cons, Expected]
    rw [Expected_dens e k ms]
    simp only [dens, Expected]
    ring

/-- A residual point. -/
noncomputable def resPoint (e c m : Nat → ℝ) (k : Nat) : Point :=
  ⟨Real.sqrt (e k * e (k + 1)), (dens e c k - dens e m k) / dens e m k,
    Real.sqrt (c k) / (e (k + 1) - e k) / dens e m k⟩

theorem dens_ne (h : Bins e) {m : Nat → ℝ} {k : Nat} (hm : m k ≠ 0) : dens e m k ≠ 0 :=
  div_ne_zero hm (width_ne h k)

theorem residuals_ok (h : Bins e) {m : Nat → ℝ} (hm : ∀ k, k < n → m k ≠ 0) :
    residuals ((List.range n).map (obsPoint e c)) (tab n (dens e m)) =
      .ok ((List.range n).map (resPoint e c m)) := by
  unfold residuals
  rw [tab_length]
  apply mapM_ok
  intro k hk
  have hk' := List.mem_range.mp hk
  have hp : ((List.range n).map (obsPoint e c))[k]? = some (obsPoint e c k) := by
    simp [List.getElem?_range hk']
  rw [hp]
  simp only []
  rw [Res.bind_ok, vAt_tab _ hk', Res.bind_ok, divide_ok (dens_ne h (hm k hk')), Res.bind_ok,
    divide_ok (dens_ne h (hm k hk')), Res.bind_ok]
  rfl

end Verif.PlotSpec
