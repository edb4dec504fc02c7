import Verif.DmFit.Model
import Verif.DmFit.Spec
import Verif.Vec
import Mathlib.Tactic.Linarith
import Mathlib.Tactic.Ring
import Mathlib.Tactic.FieldSimp
import Mathlib.Tactic.NormNum

set_option linter.unusedSimpArgs false
set_option linter.unusedVariables false

/-!
# Lemmas on the search
-/

namespace Verif.DmFit

open Vec

/-- The entry at a place of the search. -/
noncomputable def A (a : List ℝ) (imin t : Int) : ℝ := val a (t - (imin + 10)).toNat

theorem ent_ok (a : List ℝ) (imin t : Int) (h0 : imin + 10 ≤ t)
    (h1 : t - (imin + 10) < a.length) : ent a imin t = .ok (A a imin t) := by
  unfold ent A
  rw [if_neg (by omega), vget_val (by omega)]

theorem A_lt {a : List ℝ} (hs : a.Pairwise (· < ·)) {imin t u : Int} (h0 : imin + 10 ≤ t)
    (h : t < u) (h1 : u - (imin + 10) < a.length) : A a imin t < A a imin u := by
  unfold A
  rw [val_lt (by omega), val_lt (by omega)]
  exact List.pairwise_iff_getElem.1 hs _ _ _ _ (by omega)

theorem A_le {a : List ℝ} (hs : a.Pairwise (· < ·)) {imin t u : Int} (h0 : imin + 10 ≤ t)
    (h : t ≤ u) (h1 : u - (imin + 10) < a.length) : A a imin t ≤ A a imin u := by
  rcases eq_or_lt_of_le h with rfl | h'
  · exact le_rfl
  · exact (A_lt hs h0 h' h1).le

theorem rounds_ok {a : List ℝ} (hs : a.Pairwise (· < ·)) {imin imax : Int} (hn : -9 ≤ imin)
    (hl : (a.length : Int) = imax - imin + 2) {v : ℝ} (n : ℕ) :
    ∀ (s : Srch) (lo hi : Int), imin + 10 ≤ lo → lo ≤ s.i → s.i ≤ hi → hi ≤ imax + 10 →
      lo - 1 ≤ s.imint → s.imint ≤ lo → hi ≤ s.imaxt → s.imaxt ≤ hi + 1 →
      A a imin lo ≤ v → v < A a imin (hi + 1) → (s.iold = 0 ∨ s.iold = s.i) →
      imin + 10 ≤ s.imint → hi - lo < n →
      ∃ i, imin ≤ i ∧ i ≤ imax ∧ A a imin (i + 10) ≤ v ∧ v < A a imin (i + 10 + 1) ∧
        rounds a imin v n s = .ok (some (i, (v - A a imin (i + 10)) /
          (A a imin (i + 10 + 1) - A a imin (i + 10)))) := by
  induction n with
  | zero => intro s lo hi h1 h2 h3 h4 h5 h6 h7 h8 h9 h10 h11 h12 h13; omega
  | succ n ih =>
    intro s lo hi h1 h2 h3 h4 h5 h6 h7 h8 h9 h10 h11 h12 h13
    have e1 := ent_ok a imin s.i (by omega) (by omega)
    have e2 := ent_ok a imin (s.i + 1) (by omega) (by omega)
    unfold rounds round
    rw [e1, e2]
    simp only [Res.bind_ok, Res.pure_eq]
    by_cases hf : v ≥ A a imin s.i ∧ v < A a imin (s.i + 1)
    · rw [if_pos hf]
      simp only [Res.bind_ok]
      refine ⟨s.i - 10, by omega, by omega, ?_, ?_, ?_⟩
      · rw [show s.i - 10 + 10 = s.i by omega]; exact hf.1
      · rw [show s.i - 10 + 10 = s.i by omega]; exact hf.2
      · rw [show s.i - 10 + 10 = s.i by omega]
    · rw [if_neg hf]
      unfold advance
      simp only
      by_cases hg : v > A a imin s.i
      · have hy : A a imin (s.i + 1) ≤ v := by
          by_contra hc
          exact hf ⟨hg.le, not_le.1 hc⟩
        have hlt : s.i + 1 ≤ hi := by
          by_contra hc
          have := A_le hs (imin := imin) (t := hi + 1) (u := s.i + 1) (by omega) (by omega)
            (by omega)
          linarith
        simp only [if_pos hg]
        rw [if_neg (by omega)]
        simp only
        exact ih _ (s.i + 1) hi (by omega) (by simp only; omega) (by simp only; omega) h4
          (by simp only; omega) (by simp only; omega) (by simp only; omega) (by simp only; omega)
          hy h10 (Or.inr rfl) (by simp only; omega) (by omega)
      · have hy : v < A a imin s.i := by
          rcases lt_or_eq_of_le (not_lt.1 hg) with h | h
          · exact h
          · exfalso
            apply hf
            exact ⟨h.ge, by
              have := A_lt hs (imin := imin) (t := s.i) (u := s.i + 1) (by omega) (by omega)
                (by omega)
              linarith⟩
        have hlt : lo < s.i := by
          by_contra hc
          have := A_le hs (imin := imin) (t := s.i) (u := lo) (by omega) (by omega)
            (by omega)
          linarith
        simp only [if_neg hg]
        rw [if_neg (by omega)]
        simp only
        exact ih _ lo (s.i - 1) h1 (by simp only; omega) (by simp only; omega) (by omega)
          (by simp only; omega) (by simp only; omega) (by simp only; omega) (by simp only; omega)
          h9 (by rw [show s.i - 1 + 1 = s.i by omega]; exact hy) (Or.inr rfl)
          (by simp only; omega) (by omega)

theorem ifind_ok {a : List ℝ} (hs : a.Pairwise (· < ·)) {imin imax : Int} (hn : -9 ≤ imin)
    (hx : imin ≤ imax) (hl : (a.length : Int) = imax - imin + 2) (v : ℝ) :
    (A a imin (imin + 10) ≤ v ∧ v < A a imin (imax + 10 + 1) →
      ∃ i, imin ≤ i ∧ i ≤ imax ∧ A a imin (i + 10) ≤ v ∧ v < A a imin (i + 10 + 1) ∧
        ifind v a imin imax = .ok (some (i, (v - A a imin (i + 10)) /
          (A a imin (i + 10 + 1) - A a imin (i + 10))))) ∧
    (v < A a imin (imin + 10) ∨ A a imin (imax + 10 + 1) ≤ v → ifind v a imin imax = .ok none) := by
  have e1 := ent_ok a imin (imin + 10) (by omega) (by omega)
  have e2 := ent_ok a imin (imax + 10 + 1) (by omega) (by omega)
  unfold ifind
  rw [e1, e2]
  simp only [Res.bind_ok]
  constructor
  · rintro ⟨h1, h2⟩
    rw [decide_eq_false (by rintro (h | h) <;> linarith)]
    simp only [Bool.false_eq_true, if_false]
    exact rounds_ok hs hn hl a.length _ (imin + 10) (imax + 10) le_rfl (by simp only; omega)
      (by simp only; omega) le_rfl (by simp only; omega) (by simp only; omega) (by simp only; omega)
      (by simp only; omega) h1 h2 (Or.inl rfl) (by simp only; omega) (by omega)
  · intro h
    rw [decide_eq_true h]
    simp

end Verif.DmFit
