import Verif.RespCell.Model
import Verif.RespCell.Spec
import Mathlib.Tactic.Common
import Mathlib.Tactic.Ring
import Mathlib.Tactic.NormNum
import Mathlib.Tactic.FieldSimp
set_option linter.unusedSimpArgs false
set_option linter.unusedVariables false
/-
C169: the cached response does not change the flux density of a source.
-/
namespace Verif.RespCell
open Spec

mutual
theorem flux_none : ∀ s : Src, flux s none = (density s, none)
  | .point spec resp _ _ => by simp [flux, respond, density]
  | .diffuse d _ => by simp [flux, density]
  | .comp spec parts => by
    rw [flux, fluxes_none parts, density, mul_comm]
theorem fluxes_none : ∀ l : List Src, fluxes l none = (densities l, none)
  | [] => by simp [fluxes, densities]
  | s :: l => by
    rw [fluxes, flux_none s]
    simp only
    rw [fluxes_none l, densities]
end

mutual
theorem flux_full (r : ℝ) : ∀ s : Src, flux s (some (some r)) = (density (withResp r s), some (some r))
  | .point spec resp _ _ => by simp [flux, respond, density, withResp]
  | .diffuse d _ => by simp [flux, density, withResp]
  | .comp spec parts => by
    rw [flux, fluxes_full r parts, withResp, density, mul_comm]
theorem fluxes_full (r : ℝ) : ∀ l : List Src,
    fluxes l (some (some r)) = (densities (withRespL r l), some (some r))
  | [] => by simp [fluxes, densities, withRespL]
  | s :: l => by
    rw [fluxes, flux_full r s]
    simp only
    rw [fluxes_full r l, withRespL, densities]
end

mutual
theorem withResp_of_none (r : ℝ) : ∀ s : Src, resps s = [] → withResp r s = s
  | .point spec resp _ _, h => by simp [resps] at h
  | .diffuse d _, _ => by rw [withResp]
  | .comp spec parts, h => by
    rw [resps] at h
    rw [withResp, withRespL_of_none r parts h]
theorem withRespL_of_none (r : ℝ) : ∀ l : List Src, respsOf l = [] → withRespL r l = l
  | [], _ => by rw [withRespL]
  | s :: l, h => by
    rw [respsOf, List.append_eq_nil_iff] at h
    rw [withRespL, withResp_of_none r s h.1, withRespL_of_none r l h.2]
end

mutual
theorem flux_empty : ∀ s : Src, flux s (some none) =
    (density (((resps s).head?.map fun r => withResp r s).getD s), some (resps s).head?)
  | .point spec resp _ _ => by simp [flux, respond, density, withResp, resps]
  | .diffuse d _ => by simp [flux, density, resps]
  | .comp spec parts => by
    rw [flux, fluxes_empty parts, resps]
    cases h : (respsOf parts).head? with
    | none => simp [density, mul_comm]
    | some r => simp [density, withResp, mul_comm]
theorem fluxes_empty : ∀ l : List Src, fluxes l (some none) =
    (densities (((respsOf l).head?.map fun r => withRespL r l).getD l), some (respsOf l).head?)
  | [] => by simp [fluxes, densities, respsOf]
  | s :: l => by
    rw [fluxes, flux_empty s, respsOf]
    cases h : resps s with
    | nil =>
      simp only [List.head?_nil, Option.map_none, Option.getD_none, List.nil_append]
      rw [fluxes_empty l]
      cases h2 : (respsOf l).head? with
      | none => simp [densities]
      | some r => simp [densities, withRespL, withResp_of_none r s h]
    | cons r rs =>
      simp only [List.head?_cons, Option.map_some, Option.getD_some, List.cons_append]
      rw [fluxes_full r l, withRespL, densities]
end

mutual
theorem withResp_same (r : ℝ) : ∀ s : Src, (∀ x ∈ resps s, x = r) → withResp r s = s
  | .point spec resp _ _, h => by
    rw [withResp, h resp (by simp [resps])]
  | .diffuse d _, _ => by rw [withResp]
  | .comp spec parts, h => by
    rw [resps] at h
    rw [withResp, withRespL_same r parts h]
theorem withRespL_same (r : ℝ) : ∀ l : List Src, (∀ x ∈ respsOf l, x = r) → withRespL r l = l
  | [], _ => by rw [withRespL]
  | s :: l, h => by
    rw [respsOf] at h
    rw [withRespL, withResp_same r s fun x hx => h x (List.mem_append_left _ hx),
      withRespL_same r l fun x hx => h x (List.mem_append_right _ hx)]
end

theorem pointDeriv_eq {spec resp dspec : ℝ} {pf : Option ℝ} (hl : ∀ p, pf = some p → spec = p * dspec) (c : Cell) :
    pointDeriv spec resp dspec pf c = ((respond resp c).1 * dspec, (respond resp c).2) := by
  unfold pointDeriv
  cases pf with
  | none => rfl
  | some p =>
    simp only
    by_cases hp : p = 0
    · rw [if_pos hp]
    · rw [if_neg hp, hl p rfl]
      congr 1
      field_simp

theorem linear_point {spec resp dspec : ℝ} {pf : Option ℝ} (h : Linear (.point spec resp dspec pf)) :
    ∀ p, pf = some p → spec = p * dspec := by
  intro p hp
  subst hp
  simpa [Linear] using h

mutual
theorem fluxDeriv_none : ∀ s : Src, Linear s → fluxDeriv s none = (slope s, none)
  | .point spec resp dspec pf, h => by
    rw [fluxDeriv, pointDeriv_eq (linear_point h), slope]
    rfl
  | .diffuse _ d, _ => by rw [fluxDeriv, slope]
  | .comp spec parts, h => by
    rw [Linear] at h
    obtain ⟨p, n, h1, h2⟩ := fluxDerivs_none parts h
    rw [fluxDeriv, h1, slope, ← h2]
    simp only
    rw [mul_comm]
theorem fluxDerivs_none : ∀ l : List Src, LinearL l → ∃ p n, fluxDerivs l none = (p, n, none) ∧ p - n = slopes l
  | [], _ => ⟨0, 0, by rw [fluxDerivs], by simp [slopes]⟩
  | s :: l, h => by
    rw [LinearL] at h
    obtain ⟨p, n, h1, h2⟩ := fluxDerivs_none l h.2
    rw [fluxDerivs, fluxDeriv_none s h.1]
    simp only
    rw [h1, slopes, ← h2]
    simp only
    by_cases hv : 0 < slope s
    · rw [if_pos hv]
      exact ⟨_, _, rfl, by ring⟩
    · rw [if_neg hv]
      exact ⟨_, _, rfl, by ring⟩
end

mutual
theorem fluxDeriv_full (r : ℝ) : ∀ s : Src, Linear s →
    fluxDeriv s (some (some r)) = (slope (withResp r s), some (some r))
  | .point spec resp dspec pf, h => by
    rw [fluxDeriv, pointDeriv_eq (linear_point h), withResp, slope]
    rfl
  | .diffuse _ d, _ => by rw [fluxDeriv, withResp, slope]
  | .comp spec parts, h => by
    rw [Linear] at h
    obtain ⟨p, n, h1, h2⟩ := fluxDerivs_full r parts h
    rw [fluxDeriv, h1, withResp, slope, ← h2]
    simp only
    rw [mul_comm]
theorem fluxDerivs_full (r : ℝ) : ∀ l : List Src, LinearL l →
    ∃ p n, fluxDerivs l (some (some r)) = (p, n, some (some r)) ∧ p - n = slopes (withRespL r l)
  | [], _ => ⟨0, 0, by rw [fluxDerivs], by simp [slopes, withRespL]⟩
  | s :: l, h => by
    rw [LinearL] at h
    obtain ⟨p, n, h1, h2⟩ := fluxDerivs_full r l h.2
    rw [fluxDerivs, fluxDeriv_full r s h.1]
    simp only
    rw [h1, withRespL, slopes, ← h2]
    simp only
    by_cases hv : 0 < slope (withResp r s)
    · rw [if_pos hv]
      exact ⟨_, _, rfl, by ring⟩
    · rw [if_neg hv]
      exact ⟨_, _, rfl, by ring⟩
end

mutual
theorem fluxDeriv_empty : ∀ s : Src, Linear s → fluxDeriv s (some none) =
    (slope (((resps s).head?.map fun r => withResp r s).getD s), some (resps s).head?)
  | .point spec resp dspec pf, h => by
    rw [fluxDeriv, pointDeriv_eq (linear_point h)]
    simp [respond, resps, withResp, slope]
  | .diffuse _ d, _ => by
    rw [fluxDeriv]
    simp [resps, slope]
  | .comp spec parts, h => by
    rw [Linear] at h
    obtain ⟨p, n, h1, h2⟩ := fluxDerivs_empty parts h
    rw [fluxDeriv, h1, resps]
    simp only
    rw [h2]
    cases hh : (respsOf parts).head? with
    | none => simp [slope, mul_comm]
    | some r => simp [slope, withResp, mul_comm]
theorem fluxDerivs_empty : ∀ l : List Src, LinearL l →
    ∃ p n, fluxDerivs l (some none) = (p, n, some (respsOf l).head?) ∧
      p - n = slopes (((respsOf l).head?.map fun r => withRespL r l).getD l)
  | [], _ => ⟨0, 0, by rw [fluxDerivs]; simp [respsOf], by simp [slopes, respsOf]⟩
  | s :: l, h => by
    rw [LinearL] at h
    have es := fluxDeriv_empty s h.1
    rw [fluxDerivs, respsOf]
    cases hs : resps s with
    | nil =>
      rw [hs] at es
      simp only [List.head?_nil, Option.map_none, Option.getD_none] at es
      rw [List.nil_append, es]
      simp only
      obtain ⟨p, n, h1, h2⟩ := fluxDerivs_empty l h.2
      rw [h1]
      simp only
      have e : slopes (((respsOf l).head?.map fun r => withRespL r (s :: l)).getD (s :: l)) = slope s + (p - n) := by
        rw [h2]
        cases (respsOf l).head? with
        | none => simp [slopes]
        | some r => simp [slopes, withRespL, withResp_of_none r s hs]
      rw [e]
      split
      · exact ⟨_, _, rfl, by ring⟩
      · exact ⟨_, _, rfl, by ring⟩
    | cons r rs =>
      rw [hs] at es
      simp only [List.head?_cons, Option.map_some, Option.getD_some] at es
      rw [es]
      simp only [List.head?_cons, Option.map_some, Option.getD_some, List.cons_append]
      obtain ⟨p, n, h1, h2⟩ := fluxDerivs_full r l h.2
      rw [h1, withRespL, slopes, ← h2]
      simp only
      split
      · exact ⟨_, _, rfl, by ring⟩
      · exact ⟨_, _, rfl, by ring⟩
end

/-- Without a cell every source gives its flux density, and the weighted sum of the derivatives. -/
theorem C169_uncached (s : Src) : flux s none = (density s, none) ∧
    (Linear s → fluxDeriv s none = (slope s, none)) :=
  ⟨flux_none s, fluxDeriv_none s⟩

/-- What a call of a point source gives without a cell. -/
noncomputable def plain (resp : ℝ) : Call → ℝ
  | .density spec => spec * resp
  | .deriv _ dspec _ => resp * dspec

/-- Calls for which the spectrum is proportional to a parameter "Prefactor". -/
def Proper : Call → Prop
  | .density _ => True
  | .deriv spec dspec pf => ∀ p, pf = some p → spec = p * dspec

/-- Any history of calls with the cell of one point source, whatever the spectrum does in between, gives the
values without a cell. -/
theorem C169_history (resp : ℝ) : ∀ (l : List Call) (c : Cell), (∀ k ∈ l, Proper k) →
    c = some none ∨ c = some (some resp) → (calls resp l c).1 = l.map (plain resp)
  | [], _, _, _ => by rw [calls, List.map_nil]
  | k :: l, c, hp, hc => by
    have hr : respond resp c = (resp, some (some resp)) := by
      rcases hc with e | e <;> subst e <;> rfl
    have ih := C169_history resp l (some (some resp)) (fun k hk => hp k (List.mem_cons_of_mem _ hk)) (Or.inr rfl)
    cases k with
    | density spec =>
      rw [calls, flux, hr]
      simp only
      rw [ih]
      rfl
    | deriv spec dspec pf =>
      rw [calls, fluxDeriv, pointDeriv_eq (hp _ List.mem_cons_self), hr]
      simp only
      rw [ih]
      rfl

/-- A source whose point sources all have the same response — in particular one with at most one point source —
gives its flux density with an empty cell, and again with the cell that is left. -/
theorem C169_same_response_partial (s : Src) (r : ℝ) (h : ∀ x ∈ resps s, x = r) :
    (flux s (some none)).1 = density s ∧ (flux s (flux s (some none)).2).1 = density s ∧
      (Linear s → (fluxDeriv s (flux s (some none)).2).1 = slope s ∨ resps s = []) := by
  rw [flux_empty s]
  cases hh : (resps s).head? with
  | none =>
    have hn : resps s = [] := List.head?_eq_none_iff.1 hh
    simp only [Option.map_none, Option.getD_none]
    refine ⟨trivial, ?_, fun _ => Or.inr hn⟩
    rw [flux_empty s, hh]
    rfl
  | some x =>
    have hx : x = r := h x (List.mem_of_head? hh)
    subst hx
    simp only [Option.map_some, Option.getD_some]
    rw [flux_full, withResp_same _ s h]
    refine ⟨rfl, rfl, fun hl => Or.inl ?_⟩
    rw [fluxDeriv_full x s hl, withResp_same _ s h]

/-- In general the first point source decides: all others are given its response, in the flux density and in the
derivatives, in this call and in all that follow. -/
theorem C169_first_decides (s : Src) (r : ℝ) (h : (resps s).head? = some r) :
    flux s (some none) = (density (withResp r s), some (some r)) ∧
      flux s (some (some r)) = (density (withResp r s), some (some r)) ∧
      (Linear s → fluxDeriv s (some none) = (slope (withResp r s), some (some r)) ∧
        fluxDeriv s (some (some r)) = (slope (withResp r s), some (some r))) := by
  refine ⟨?_, flux_full r s, fun hl => ⟨?_, fluxDeriv_full r s hl⟩⟩
  · rw [flux_empty s, h]
    rfl
  · rw [fluxDeriv_empty s hl, h]
    rfl

/-- Two point sources with different responses in one composite source: the cached flux density is wrong. -/
theorem C169_composite_violates (spec s1 s2 r1 r2 : ℝ) (h0 : spec ≠ 0) (h2 : s2 ≠ 0) (hr : r1 ≠ r2) :
    flux (.comp spec [.point s1 r1 0 none, .point s2 r2 0 none]) (some none)
        = (spec * (s1 * r1 + s2 * r1), some (some r1)) ∧
      (flux (.comp spec [.point s1 r1 0 none, .point s2 r2 0 none]) (some none)).1 ≠
        density (.comp spec [.point s1 r1 0 none, .point s2 r2 0 none]) ∧
      flux (.comp spec [.point s1 r1 0 none, .point s2 r2 0 none]) none
        = (density (.comp spec [.point s1 r1 0 none, .point s2 r2 0 none]), none) := by
  have e : flux (.comp spec [.point s1 r1 0 none, .point s2 r2 0 none]) (some none)
      = (spec * (s1 * r1 + s2 * r1), some (some r1)) := by
    simp [flux, fluxes, respond, mul_comm]
  refine ⟨e, ?_, flux_none _⟩
  rw [e]
  simp only [density, densities, add_zero]
  intro hh
  have h3 := mul_left_cancel₀ h0 hh
  have h4 := add_left_cancel h3
  exact hr (mul_left_cancel₀ h2 h4)

/-- A point source that was moved: the cell keeps the response of the old direction. -/
theorem C169_moved_violates (spec r r' : ℝ) (h0 : spec ≠ 0) (hr : r ≠ r') :
    (flux (.point spec r' 0 none) (flux (.point spec r 0 none) (some none)).2).1 ≠
      density (.point spec r' 0 none) := by
  simp only [flux, respond, density]
  intro hh
  exact hr (mul_left_cancel₀ h0 hh)

example : Linear (.comp 2 [.point 6 5 3 (some 2), .diffuse 1 4, .comp 1 [.point 1 7 1 none]]) := by
  simp [Linear, LinearL]
  norm_num

example : ∀ k ∈ [Call.density 3, Call.deriv 6 3 (some 2), Call.deriv 1 4 none], Proper k := by
  intro k hk
  simp only [List.mem_cons, List.mem_nil_iff, or_false] at hk
  rcases hk with e | e | e <;> subst e
  · trivial
  · intro p hp
    cases hp
    norm_num
  · intro p hp
    cases hp

example : ∀ x ∈ resps (.comp 2 [.diffuse 1 4, .point 6 5 3 none]), x = 5 := by
  simp [resps, respsOf]

example : (resps (.comp 2 [.diffuse 1 4, .point 6 5 3 none, .point 1 7 1 none])).head? = some 5 := by
  simp [resps, respsOf]

end Verif.RespCell
