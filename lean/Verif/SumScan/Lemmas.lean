import Verif.SumScan.Model
import Verif.SumScan.Spec
import Verif.FitMerge.Props
import Mathlib.Data.List.Perm.Basic
import Mathlib.Data.List.Flatten
import Mathlib.Data.List.Range

set_option linter.unusedSimpArgs false
set_option linter.unusedVariables false
set_option linter.unusedSectionVars false

/-!
# Lemmas about scans of a sum of likelihoods
-/

namespace Verif.SumScan

open FitMerge (Merged binAt)
open FitMerge.Spec (Layers layerAt allAt)

variable {N : Type}

/-- `layerAt` for any kind of elements. -/
noncomputable def layerP {α : Type} (e : ℝ) : List ℝ → List (List α) → List α
  | a :: as, l :: ls => open Classical in if a = e then l else layerP e as ls
  | _, _ => []

theorem layerP_eq (e : ℝ) : ∀ (es : List ℝ) (ls : List (List ℝ)), layerP e es ls = layerAt e es ls
  | [], _ => by unfold layerP layerAt; rfl
  | _ :: _, [] => by unfold layerP layerAt; rfl
  | a :: es, l :: ls => by
    unfold layerP layerAt
    rw [layerP_eq e es ls]

theorem layerP_map {α β : Type} (f : α → β) (e : ℝ) : ∀ (es : List ℝ) (ls : List (List α)),
    layerP e es (ls.map (List.map f)) = (layerP e es ls).map f
  | [], _ => by simp [layerP]
  | _ :: _, [] => by simp [layerP]
  | a :: es, l :: ls => by
    rw [List.map_cons]
    unfold layerP
    by_cases h : a = e
    · rw [if_pos h, if_pos h]
    · rw [if_neg h, if_neg h, layerP_map f e es ls]

theorem layerP_not {α : Type} {e : ℝ} : ∀ {es : List ℝ} {ls : List (List α)}, e ∉ es →
    layerP e es ls = []
  | [], _, _ => by unfold layerP; rfl
  | _ :: _, [], _ => by unfold layerP; rfl
  | a :: es, l :: ls, h => by
    unfold layerP
    simp only [List.mem_cons, not_or] at h
    rw [if_neg (fun q => h.1 q.symm)]
    exact layerP_not h.2

theorem flatP {α : Type} : ∀ {E es : List ℝ} {ls : List (List α)}, E.Pairwise (· < ·) →
    es.Pairwise (· < ·) → (∀ a ∈ es, a ∈ E) → es.length = ls.length + 1 →
    E.flatMap (fun e => layerP e es ls) = ls.flatten
  | [], es, ls, _, _, hsub, hl => by
    cases es with
    | nil => simp at hl
    | cons a as => exact absurd (hsub a (by simp)) (by simp)
  | x :: E, es, ls, hE, hs, hsub, hl => by
    cases es with
    | nil => simp at hl
    | cons a as =>
      rw [List.pairwise_cons] at hE
      have hs' := List.pairwise_cons.1 hs
      rw [List.flatMap_cons]
      by_cases hax : a = x
      · subst hax
        cases ls with
        | nil =>
          have : ∀ e, layerP e (a :: as) ([] : List (List α)) = [] := fun e => by unfold layerP; rfl
          simp [this]
        | cons l ls =>
          have h1 : layerP a (a :: as) (l :: ls) = l := by unfold layerP; rw [if_pos rfl]
          have h2 : E.flatMap (fun e => layerP e (a :: as) (l :: ls)) =
              E.flatMap (fun e => layerP e as ls) := by
            apply List.flatMap_congr
            intro e he
            conv_lhs => unfold layerP
            rw [if_neg (ne_of_lt (hE.1 e he))]
          rw [h1, h2, List.flatten_cons]
          congr 1
          refine flatP hE.2 hs'.2 ?_ (by simpa using hl)
          intro b hb
          have := hsub b (List.mem_cons_of_mem _ hb)
          rcases List.mem_cons.1 this with h | h
          · exact absurd h (ne_of_gt (hs'.1 b hb))
          · exact h
      · have hx : x ∉ a :: as := by
          intro h
          rcases List.mem_cons.1 h with h | h
          · exact hax h.symm
          · have h3 := hs'.1 x h
            have h4 := hsub a (by simp)
            rcases List.mem_cons.1 h4 with h5 | h5
            · exact hax h5
            · exact absurd (hE.1 a h5) (not_lt.2 h3.le)
        rw [layerP_not hx, List.nil_append]
        refine flatP hE.2 hs ?_ hl
        intro b hb
        rcases List.mem_cons.1 (hsub b hb) with h | h
        · exact absurd (h ▸ hb) hx
        · exact h

/-- The layers of a vector. -/
def chunk {α : Type} (n m : Nat) (f : Nat → α) : List (List α) :=
  (List.range m).map fun k => (List.range n).map fun i => f (k * n + i)

theorem chunk_map {α β : Type} (g : α → β) (n m : Nat) (f : Nat → α) :
    (chunk n m f).map (List.map g) = chunk n m (fun i => g (f i)) := by
  simp [chunk, Function.comp_def]

theorem chunk_flatten {α : Type} (n m : Nat) (f : Nat → α) :
    (chunk n m f).flatten = (List.range (n * m)).map f := by
  induction m with
  | zero => simp [chunk]
  | succ m ih =>
    unfold chunk at ih ⊢
    rw [List.range_succ, List.map_append, List.flatten_append, ih, Nat.mul_succ,
      List.range_add, List.map_append]
    simp [Nat.mul_comm, Function.comp_def]

theorem chunk_length {α : Type} (n m : Nat) (f : Nat → α) : (chunk n m f).length = m := by
  simp [chunk]

theorem range_at (v : List ℝ) : (List.range v.length).map (Spec.at' v) = v := by
  apply List.ext_getElem
  · simp
  · intro i h1 h2
    simp [Spec.at', h2]

/-- A component with one of its vectors, by layers. -/
def lay (p : Part N) (v : List ℝ) : Layers :=
  ⟨p.edges, p.npix, chunk p.npix (p.edges.length - 1) (Spec.at' v)⟩

theorem lay_good {p : Part N} (h : Spec.Good p) (v : List ℝ) : FitMerge.Spec.Good (lay p v) where
  sorted := h.sorted
  positive := h.positive
  count := by
    have := h.bins
    simp only [lay, chunk_length]
    omega
  sizes := by
    intro l hl
    simp only [lay, chunk, List.mem_map] at hl
    obtain ⟨k, -, rfl⟩ := hl
    simp [lay]

theorem lay_comp {p : Part N} (v : List ℝ) (hv : v.length = p.npix * (p.edges.length - 1)) :
    (lay p v).comp = asComp p v := by
  unfold lay Layers.comp asComp
  simp only [chunk_flatten]
  rw [← hv, range_at]

/-- All places: those of the first component, of the second, and so on. -/
def places (ps : List (Part N)) : List (Nat × Nat) :=
  ps.zipIdx.flatMap fun pc => (List.range (pc.1.npix * (pc.1.edges.length - 1))).map fun i => (pc.2, i)

/-- The order in which the vectors are put together. -/
noncomputable def order (E : List ℝ) (ps : List (Part N)) : List (Nat × Nat) :=
  E.flatMap fun e => ps.zipIdx.flatMap fun pc =>
    layerP e pc.1.edges (chunk pc.1.npix (pc.1.edges.length - 1) fun i => (pc.2, i))

theorem exchange_perm {α β γ : Type} (f : α → β → List γ) (E : List α) : ∀ cs : List β,
    (E.flatMap fun e => cs.flatMap (f e)).Perm (cs.flatMap fun c => E.flatMap fun e => f e c)
  | [] => by simp
  | c :: cs => by
    simp only [List.flatMap_cons]
    exact (List.flatMap_append_perm E _ _).symm.trans
      (List.Perm.append_left _ (exchange_perm f E cs))

/-- Every place comes exactly once. -/
theorem order_perm {E : List ℝ} {ps : List (Part N)} (hE : E.Pairwise (· < ·))
    (hg : ∀ p ∈ ps, Spec.Good p) (hsub : ∀ p ∈ ps, ∀ a ∈ p.edges, a ∈ E) :
    (order E ps).Perm (places ps) := by
  unfold order places
  refine (exchange_perm (fun (e : ℝ) (pc : Part N × Nat) => layerP e pc.1.edges
    (chunk pc.1.npix (pc.1.edges.length - 1) fun i => (pc.2, i))) E ps.zipIdx).trans ?_
  rw [List.flatMap_congr]
  intro pc hpc
  have hp : pc.1 ∈ ps := by
    obtain ⟨p, c⟩ := pc
    exact (List.mem_zipIdx' hpc).2 ▸ List.getElem_mem _
  rw [flatP hE (hg _ hp).sorted (hsub _ hp)
    (by rw [chunk_length]; have := (hg _ hp).bins; omega), chunk_flatten]

end Verif.SumScan
