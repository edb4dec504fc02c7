import Mathlib.Tactic.NormNum
import Mathlib.Tactic.Ring
import Mathlib.Tactic.Linarith
import Mathlib.Tactic.FieldSimp
import Mathlib.Algebra.BigOperators.Group.List.Basic
import Mathlib.Algebra.Order.BigOperators.Group.List
import Verif.EM.Spec
set_option linter.unusedSectionVars false
set_option linter.unusedSimpArgs false
set_option linter.unusedVariables false
namespace Verif.EM
open Verif.EM.Spec

variable {P E : Type}

theorem foldl_add {α : Type} (f : α → ℝ) (l : List α) (z : ℝ) : l.foldl (fun z s => z + f s) z = z + (l.map f).sum := by
  induction l generalizing z with
  | nil => simp
  | cons a l ih => rw [List.foldl_cons, ih, List.map_cons, List.sum_cons]; ring

theorem ztot_eq (srcs : List (Src P E × P)) (e : E) : ztot srcs e = density srcs e := by
  unfold ztot density
  rw [foldl_add (fun s : Src P E × P => s.1.dens s.2 e), zero_add]

theorem oneSource_eq (epsw epsf : ℝ) (s : Src P E) (ew : List (E × ℝ)) (p : P) :
    oneSource epsw epsf s ew p = (ew.map fun x =>
      if epsw < x.2 ∧ epsf < |s.dens p x.1| then x.2 * Real.log (s.dens p x.1) else 0).sum - s.npred p := by
  unfold oneSource
  congr 1
  have : (fun (val : ℝ) (x : E × ℝ) =>
      if epsw < x.2 then if epsf < |s.dens p x.1| then val + x.2 * Real.log (s.dens p x.1) else val else val) =
      fun val x => val + (fun x : E × ℝ =>
        if epsw < x.2 ∧ epsf < |s.dens p x.1| then x.2 * Real.log (s.dens p x.1) else 0) x := by
    funext val x
    by_cases h1 : epsw < x.2 <;> by_cases h2 : epsf < |s.dens p x.1| <;> simp [h1, h2]
  rw [this, foldl_add, zero_add]

theorem sum_div {α : Type} (f : α → ℝ) (l : List α) (z : ℝ) : (l.map fun a => f a / z).sum = (l.map f).sum / z := by
  induction l with
  | nil => simp
  | cons a l ih => simp only [List.map_cons, List.sum_cons, ih]; ring

theorem sum_swap {α β : Type} (f : α → β → ℝ) (l : List α) (m : List β) :
    (l.map fun a => (m.map fun b => f a b).sum).sum = (m.map fun b => (l.map fun a => f a b).sum).sum := by
  induction l with
  | nil => simp
  | cons a l ih =>
    simp only [List.map_cons, List.sum_cons, ih]
    clear ih
    induction m with
    | nil => simp
    | cons b m ih2 => simp only [List.map_cons, List.sum_cons]; linarith

theorem sum_le {α : Type} (f g : α → ℝ) (l : List α) (h : ∀ a ∈ l, f a ≤ g a) : (l.map f).sum ≤ (l.map g).sum :=
  List.sum_le_sum h

theorem sum_sub {α : Type} (f g : α → ℝ) (l : List α) :
    (l.map fun a => f a - g a).sum = (l.map f).sum - (l.map g).sum := by
  induction l with
  | nil => simp
  | cons a l ih => simp only [List.map_cons, List.sum_cons, ih]; ring

theorem sum_mul_right {α : Type} (f : α → ℝ) (c : ℝ) (l : List α) :
    (l.map fun a => f a * c).sum = (l.map f).sum * c := by
  induction l with
  | nil => simp
  | cons a l ih => simp only [List.map_cons, List.sum_cons, ih]; ring

/-- Jensen's inequality for one event. -/
theorem jensen {α : Type} (q q' : α → ℝ) (l : List α) (h : ∀ a ∈ l, 0 ≤ q a) (h' : ∀ a ∈ l, 0 ≤ q' a)
    (hp : ∀ a ∈ l, 0 < q a → 0 < q' a) (hz : 0 < (l.map q).sum) :
    0 < (l.map q').sum ∧
    (l.map fun a => q a / (l.map q).sum * (Real.log (q' a) - Real.log (q a))).sum ≤
      Real.log (l.map q').sum - Real.log (l.map q).sum := by
  set z := (l.map q).sum with hzd
  set z' := (l.map q').sum with hzd'
  have hz' : 0 < z' := by
    obtain ⟨a, ha, hqa⟩ : ∃ a ∈ l, 0 < q a := by
      by_contra hcon
      push Not at hcon
      have := sum_le q (fun _ => 0) l hcon
      simp at this
      linarith
    have h1 : q' a ≤ z' := by
      rw [hzd']
      refine List.single_le_sum ?_ _ (List.mem_map.2 ⟨a, ha, rfl⟩)
      intro x hx
      obtain ⟨b, hb, rfl⟩ := List.mem_map.1 hx
      exact h' b hb
    linarith [hp a ha hqa]
  refine ⟨hz', ?_⟩
  have hterm : ∀ a ∈ l, q a / z * (Real.log (q' a) - Real.log (q a)) - q a / z * (Real.log z' - Real.log z) ≤
      q' a / z' - q a / z := by
    intro a ha
    rcases lt_or_eq_of_le (h a ha) with hq | hq
    · have hq' := hp a ha hq
      have hlog : Real.log (q' a * z / (q a * z')) ≤ q' a * z / (q a * z') - 1 :=
        Real.log_le_sub_one_of_pos (by positivity)
      rw [Real.log_div (by positivity) (by positivity), Real.log_mul hq'.ne' hz.ne', Real.log_mul hq.ne' hz'.ne'] at hlog
      have hw : 0 ≤ q a / z := by positivity
      have := mul_le_mul_of_nonneg_left hlog hw
      have e : q a / z * (q' a * z / (q a * z') - 1) = q' a / z' - q a / z := by field_simp
      rw [e] at this
      linarith
    · rw [← hq]
      have := h' a ha
      have : 0 ≤ q' a / z' := by positivity
      simp only [zero_div, zero_mul, sub_zero]
      linarith
  have hs := sum_le _ _ l hterm
  rw [sum_sub, sum_sub, sum_mul_right, sum_div, sum_div, ← hzd, ← hzd', div_self hz.ne', div_self hz'.ne'] at hs
  linarith

end Verif.EM
