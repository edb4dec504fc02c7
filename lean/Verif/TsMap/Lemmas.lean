import Mathlib.Data.List.Forall2
import Mathlib.Tactic.Linarith
import Mathlib.Algebra.BigOperators.Group.List.Basic
import Verif.TsMap.Model
import Verif.TsMap.Spec
/-
Lemmas about the map of test statistics.
-/
set_option linter.unusedSectionVars false
set_option linter.unusedSimpArgs false
set_option linter.unusedVariables false

namespace Verif.TsMap

open Verif

variable {κ : Type} [LinearOrder κ] {A D : Type}

/-! ### models that differ in what fits change -/

theorem alike_refl {same : A → A → Prop} (h : ∀ a, same a a) (m : List (κ × A)) :
    Spec.Alike same m m := List.forall₂_same.2 (fun x _ => ⟨rfl, h x.2⟩)

theorem alike_trans {same : A → A → Prop} (h : ∀ a b c, same a b → same b c → same a c)
    {m₁ m₂ m₃ : List (κ × A)} (h1 : Spec.Alike same m₁ m₂) (h2 : Spec.Alike same m₂ m₃) :
    Spec.Alike same m₁ m₃ := by
  unfold Spec.Alike at *
  induction h1 generalizing m₃ with
  | nil => exact h2
  | cons hx _ ih =>
    cases h2 with
    | cons hy h2 => exact .cons ⟨hx.1.trans hy.1, h _ _ _ hx.2 hy.2⟩ (ih h2)

theorem alike_symm {same : A → A → Prop} (h : ∀ a b, same a b → same b a)
    {m₁ m₂ : List (κ × A)} (h1 : Spec.Alike same m₁ m₂) : Spec.Alike same m₂ m₁ := by
  unfold Spec.Alike at *
  induction h1 with
  | nil => exact .nil
  | cons hx _ ih => exact .cons ⟨hx.1.symm, h _ _ hx.2⟩ ih

theorem alike_keys {same : A → A → Prop} {m₁ m₂ : List (κ × A)}
    (h : Spec.Alike same m₁ m₂) : StdMap.keys m₁ = StdMap.keys m₂ := by
  unfold Spec.Alike at h
  induction h with
  | nil => rfl
  | cons hx _ ih => show _ :: _ = _ :: _; rw [hx.1]; exact congrArg _ ih

theorem alike_sorted {same : A → A → Prop} {m₁ m₂ : List (κ × A)}
    (h : Spec.Alike same m₁ m₂) (hs : StdMap.Sorted m₁) : StdMap.Sorted m₂ := by
  unfold StdMap.Sorted at *
  rw [← alike_keys h]; exact hs

theorem alike_find {same : A → A → Prop} {m₁ m₂ : List (κ × A)}
    (h : Spec.Alike same m₁ m₂) (k : κ) :
    (StdMap.find m₂ k).isSome = (StdMap.find m₁ k).isSome := by
  have h1 := @StdMap.find_none κ _ A m₁ k
  have h2 := @StdMap.find_none κ _ A m₂ k
  rw [← alike_keys h] at h2
  cases e1 : StdMap.find m₁ k with
  | none => rw [h2.2 (h1.1 e1)]
  | some a =>
    cases e2 : StdMap.find m₂ k with
    | none => rw [h1.2 (h2.1 e2)] at e1; cases e1
    | some b => rfl

theorem alike_put {same : A → A → Prop} {m₁ m₂ : List (κ × A)}
    (h : Spec.Alike same m₁ m₂) (k : κ) {a b : A} (hab : same a b) :
    Spec.Alike same (StdMap.put m₁ k a) (StdMap.put m₂ k b) := by
  unfold Spec.Alike at *
  induction h with
  | nil => exact .cons ⟨rfl, hab⟩ .nil
  | cons hx ht ih =>
    rename_i x y l₁ l₂
    obtain ⟨k₁, a₁⟩ := x
    obtain ⟨k₂, a₂⟩ := y
    obtain ⟨h1, h2⟩ := hx
    simp only at h1 h2
    subst h1
    rw [StdMap.put, StdMap.put]
    by_cases c1 : k < k₁
    · rw [if_pos c1, if_pos c1]
      exact .cons ⟨rfl, hab⟩ (.cons ⟨rfl, h2⟩ ht)
    · rw [if_neg c1, if_neg c1]
      by_cases c2 : k = k₁
      · rw [if_pos c2, if_pos c2]
        exact .cons ⟨rfl, hab⟩ ht
      · rw [if_neg c2, if_neg c2]
        exact .cons ⟨rfl, h2⟩ ih

theorem alike_erase {same : A → A → Prop} {m₁ m₂ : List (κ × A)}
    (h : Spec.Alike same m₁ m₂) (k : κ) :
    Spec.Alike same (StdMap.erase m₁ k) (StdMap.erase m₂ k) := by
  unfold Spec.Alike at *
  induction h with
  | nil => exact .nil
  | cons hx ht ih =>
    rename_i x y l₁ l₂
    obtain ⟨k₁, a₁⟩ := x
    obtain ⟨k₂, a₂⟩ := y
    obtain ⟨h1, h2⟩ := hx
    simp only at h1 h2
    subst h1
    rw [StdMap.erase, StdMap.erase]
    by_cases c : k₁ = k
    · rw [if_pos c, if_pos c]; exact ht
    · rw [if_neg c, if_neg c]; exact .cons ⟨rfl, h2⟩ ih

theorem best_alike {same : A → A → Prop} (hs : ∀ a b, same a b → same b a)
    (ht : ∀ a b c, same a b → same b c → same a c) {value : List (κ × A) → ℝ}
    {m₁ m₂ : List (κ × A)} (h : Spec.Alike same m₁ m₂) {b : ℝ}
    (hb : Spec.Best same value m₁ b) : Spec.Best same value m₂ b := by
  refine ⟨?_, ?_⟩
  · obtain ⟨m', h1, h2⟩ := hb.1
    exact ⟨m', alike_trans ht (alike_symm hs h) h1, h2⟩
  · rintro v ⟨m', h1, h2⟩
    exact hb.2 ⟨m', alike_trans ht h h1, h2⟩

theorem best_unique {same : A → A → Prop} {value : List (κ × A) → ℝ}
    {m : List (κ × A)} {b c : ℝ}
    (hb : Spec.Best same value m b) (hc : Spec.Best same value m c) : b = c :=
  le_antisymm (hc.2 hb.1) (hb.2 hc.1)

/-! ### the grid -/

theorem grid_length (s : Setup κ A D) (o : Opts) : (setGrid s o).length = o.ny * o.nx := by
  unfold setGrid
  rw [List.length_flatMap]
  have : (List.map (fun j => (gridRow s (proj o) j o.nx).length) (List.range o.ny)) =
      List.replicate o.ny o.nx := by
    apply List.ext_getElem (by simp)
    intro i h1 h2
    simp [gridRow]
  rw [this, List.sum_replicate, smul_eq_mul]

theorem flat_get {α : Type} (f : Nat → List α) (n : Nat) (ny : Nat) (hf : ∀ j, (f j).length = n)
    (i j : Nat) (hi : i < n) (hj : j < ny) :
    ((List.range ny).flatMap f)[j * n + i]? = (f j)[i]? := by
  induction ny generalizing j with
  | zero => omega
  | succ ny ih =>
    rw [List.range_succ, List.flatMap_append]
    have hl : ((List.range ny).flatMap f).length = ny * n := by
      rw [List.length_flatMap]
      have : (List.map (fun j => (f j).length) (List.range ny)) = List.replicate ny n := by
        apply List.ext_getElem (by simp)
        intro i h1 h2
        simp [hf]
      rw [this, List.sum_replicate, smul_eq_mul]
    by_cases h : j < ny
    · rw [List.getElem?_append_left, ih j h]
      rw [hl]
      calc j * n + i < j * n + n := by omega
        _ = (j + 1) * n := by rw [Nat.add_mul, Nat.one_mul]
        _ ≤ ny * n := Nat.mul_le_mul_right n h
    · have : j = ny := by omega
      subst this
      rw [List.getElem?_append_right (by rw [hl]; omega), hl, show j * n + i - j * n = i by omega]
      simp

theorem grid_get (s : Setup κ A D) (o : Opts) (i j : Nat) (hi : i < o.nx) (hj : j < o.ny) :
    (setGrid s o)[j * o.nx + i]? = some (s.sky (proj o) ((i : ℝ) + 1) ((j : ℝ) + 1)) := by
  unfold setGrid
  rw [flat_get _ o.nx o.ny (fun j => by simp [gridRow]) i j hi hj]
  unfold gridRow
  rw [List.getElem?_map, List.getElem?_range hi]; rfl

theorem proj_image (o : Opts) (px : List ℝ) : Spec.projOf (image o px) = proj o := by
  unfold Spec.projOf image proj
  by_cases h : o.coordsys = ['G', 'A', 'L']
  · simp only [h, if_true]
    simp
  · simp only [h, if_false]
    simp
    rfl

end Verif.TsMap
