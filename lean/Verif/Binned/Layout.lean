import Verif.Binned.Spec
import Verif.Counts.Lemmas
import Mathlib.Algebra.BigOperators.Group.Finset.Basic
import Mathlib.Algebra.BigOperators.Intervals
import Mathlib.Tactic.Ring
import Mathlib.Tactic.Linarith
set_option linter.unusedVariables false
set_option linter.unusedSimpArgs false
namespace Verif.Binned

open Verif.Vec
open scoped BigOperators

/-- The list of filled pixels is cut into one stretch per energy bin. -/
structure Lay (e : Env) : Prop where
  len : e.first.length = e.nebins + 1
  mono : ∀ k k', k ≤ k' → k' ≤ e.nebins → val e.first k ≤ val e.first k'
  last : ∀ k ≤ e.nebins, val e.first k ≤ e.filled.length
  pix : ∀ k < e.nebins, ∀ j, val e.first k ≤ j → j < val e.first (k + 1) → val e.filled j < e.npix
  pos : ∀ k < e.nebins, ∀ j, val e.first k ≤ j → j < val e.first (k + 1) →
    0 < val e.data (k * e.npix + val e.filled j)
  sum : ∀ k < e.nebins, ∀ G : Nat → ℝ,
    ∑ i ∈ Finset.range (val e.first (k + 1) - val e.first k), G (val e.filled (val e.first k + i)) =
      ∑ p ∈ Finset.range e.npix, if 0 < val e.data (k * e.npix + p) then G p else 0

theorem sum_filter_range (n : Nat) (P : Nat → Prop) [DecidablePred P] (G : Nat → ℝ) :
    (((List.range n).filter (fun i => decide (P i))).map G).sum =
      ∑ p ∈ Finset.range n, if P p then G p else 0 := by
  induction n with
  | zero => simp
  | succ n ih =>
    rw [List.range_succ, List.filter_append, List.map_append, List.sum_append, ih,
      Finset.sum_range_succ]
    congr 1
    by_cases h : P n <;> simp [h]

theorem lay_of {e : Env} (h : e.Ok) : Lay e := by
  have hf := h.filled
  rw [Counts.identifyFilled_eq _ _ _ h.data] at hf
  have hF : Counts.filledUpTo e.npix e.data e.nebins = e.filled := by
    injection hf with h1; exact congrArg Prod.fst h1
  have hS : (List.range (e.nebins + 1)).map (fun k => (Counts.filledUpTo e.npix e.data k).length) =
      e.first := by
    injection hf with h1; exact congrArg Prod.snd h1
  have hv : ∀ k ≤ e.nebins, val e.first k = (Counts.filledUpTo e.npix e.data k).length := by
    intro k hk
    rw [← hS, val_map_range _ (by omega)]
  have hst : ∀ k < e.nebins, ∀ i < val e.first (k + 1) - val e.first k,
      ∃ p, (Counts.positivePixels (Counts.plane e.npix e.data k))[i]? = some p ∧
        val e.filled (val e.first k + i) = p := by
    intro k hk i hi
    have hpre := Counts.filledUpTo_prefix e.npix e.data (show k + 1 ≤ e.nebins by omega)
    rw [hF, Counts.filledUpTo_succ] at hpre
    have hlen : val e.first (k + 1) = val e.first k +
        (Counts.positivePixels (Counts.plane e.npix e.data k)).length := by
      rw [hv _ (by omega), hv _ (by omega), Counts.filledUpTo_succ, List.length_append]
    have hi' : i < (Counts.positivePixels (Counts.plane e.npix e.data k)).length := by omega
    refine ⟨_, List.getElem?_eq_getElem hi', ?_⟩
    obtain ⟨t, ht⟩ := hpre
    unfold val
    rw [← ht]
    rw [show e.first[k]?.getD 0 = (Counts.filledUpTo e.npix e.data k).length from hv k (by omega)]
    rw [List.getElem?_append_left (by simp; omega), List.getElem?_append_right (by omega),
      Nat.add_sub_cancel_left, List.getElem?_eq_getElem hi']
    rfl
  have hpp : ∀ k < e.nebins, ∀ p, p ∈ Counts.positivePixels (Counts.plane e.npix e.data k) →
      p < e.npix ∧ 0 < val e.data (k * e.npix + p) := by
    intro k hk p hp
    unfold Counts.positivePixels at hp
    rw [List.mem_filter, List.mem_range, Counts.plane_length h.data hk] at hp
    refine ⟨hp.1, ?_⟩
    have := hp.2
    rw [Counts.plane_getElem? hp.1] at this
    exact of_decide_eq_true this
  have hpos : ∀ k < e.nebins, ∀ j, val e.first k ≤ j → j < val e.first (k + 1) →
      val e.filled j < e.npix ∧ 0 < val e.data (k * e.npix + val e.filled j) := by
    intro k hk j h1 h2
    obtain ⟨p, hp, hq⟩ := hst k hk (j - val e.first k) (by omega)
    rw [show val e.first k + (j - val e.first k) = j by omega] at hq
    rw [hq]
    exact hpp k hk p (List.mem_of_getElem? hp)
  refine ⟨by rw [← hS]; simp, ?_, ?_, fun k hk j h1 h2 => (hpos k hk j h1 h2).1,
    fun k hk j h1 h2 => (hpos k hk j h1 h2).2, ?_⟩
  · intro k k' hkk hk'
    rw [hv k (by omega), hv k' hk']
    exact Counts.filledUpTo_length_mono _ _ hkk
  · intro k hk
    rw [hv k hk, ← hF]
    exact Counts.filledUpTo_length_mono _ _ hk
  · intro k hk G
    have hlen : val e.first (k + 1) - val e.first k =
        (Counts.positivePixels (Counts.plane e.npix e.data k)).length := by
      rw [hv _ (by omega), hv _ (by omega), Counts.filledUpTo_succ, List.length_append]
      omega
    have hsum : ((Counts.positivePixels (Counts.plane e.npix e.data k)).map G).sum =
        ∑ p ∈ Finset.range e.npix, if 0 < val e.data (k * e.npix + p) then G p else 0 := by
      unfold Counts.positivePixels
      rw [Counts.plane_length h.data hk]
      have : (List.range e.npix).filter (fun i => decide
          (0 < ((Counts.plane e.npix e.data k)[i]?).getD 0)) =
          (List.range e.npix).filter (fun i => decide (0 < val e.data (k * e.npix + i))) := by
        apply List.filter_congr
        intro i hi
        rw [List.mem_range] at hi
        rw [Counts.plane_getElem? hi]; rfl
      rw [this]
      exact sum_filter_range e.npix (fun i => 0 < val e.data (k * e.npix + i)) G
    rw [← hsum, sum_val, List.length_map, ← hlen]
    apply Finset.sum_congr rfl
    intro i hi
    obtain ⟨p, hp, hq⟩ := hst k hk i (Finset.mem_range.1 hi)
    rw [hq]
    unfold val
    rw [List.getElem?_map, hp]; rfl

/-- Loop updating the elements `lo ≤ j < lo + n` one by one. -/
theorem loop_upd {α : Type} [Zero α] {v : List α} {lo n : Nat} {body : Nat → List α → Res (List α)}
    (H : Nat → α → α) (hn : lo + n ≤ v.length)
    (hb : ∀ j w, lo ≤ j → j < lo + n → w.length = v.length → body j w = .ok (w.set j (H j (val w j)))) :
    ∃ w, loop body lo n v = .ok w ∧ w.length = v.length ∧
      ∀ k, val w k = if lo ≤ k ∧ k < lo + n then H k (val v k) else val v k := by
  obtain ⟨w, h1, h2, h3⟩ := loop_inv (body := body) (lo := lo) (n := n) (s := v)
    (fun i w => w.length = v.length ∧
      ∀ k, val w k = if lo ≤ k ∧ k < i then H k (val v k) else val v k)
    ⟨rfl, fun k => by rw [if_neg (by omega)]⟩
    (by
      rintro i w hi hi' ⟨hl, hv⟩
      have hvi : val w i = val v i := by rw [hv, if_neg (by omega)]
      refine ⟨_, hb i w hi hi' hl, by simp [hl], ?_⟩
      intro k
      rw [val_set (by omega)]
      by_cases hk : k = i
      · subst hk; rw [if_pos rfl, hvi, if_pos (by omega)]
      · rw [if_neg hk, hv k]
        by_cases h2 : lo ≤ k ∧ k < i
        · rw [if_pos h2, if_pos (by omega)]
        · rw [if_neg h2, if_neg (by omega)])
  exact ⟨w, h1, h2, h3⟩

/-- Loop over the stretches of bins `kmin ≤ k < kmax`, updating their elements. -/
theorem stretch_upd {e : Env} (L : Lay e) {v : List ℝ} (hv : v.length = e.filled.length)
    {kmin kmax : Nat} (hk : kmax ≤ e.nebins) {body : Nat → Nat → List ℝ → Res (List ℝ)}
    (H : Nat → Nat → ℝ → ℝ)
    (hb : ∀ k j w, kmin ≤ k → k < kmax → val e.first k ≤ j → j < val e.first (k + 1) →
      w.length = v.length → body k j w = .ok (w.set j (H k j (val w j)))) :
    ∃ w, loop (fun k w => do
        let a ← vget e.first k
        let b ← vget e.first (k + 1)
        loop (body k) a (b - a) w) kmin (kmax - kmin) v = .ok w ∧ w.length = v.length ∧
      ∀ k, kmin ≤ k → k < kmax → ∀ j, val e.first k ≤ j → j < val e.first (k + 1) →
        val w j = H k j (val v j) := by
  obtain ⟨w, h1, h2, h3, h4⟩ := loop_inv (lo := kmin) (n := kmax - kmin) (s := v)
    (body := fun k w => do
        let a ← vget e.first k
        let b ← vget e.first (k + 1)
        loop (body k) a (b - a) w)
    (fun m w => w.length = v.length ∧
      (∀ k, kmin ≤ k → k < m → m ≤ kmax → ∀ j, val e.first k ≤ j → j < val e.first (k + 1) →
        val w j = H k j (val v j)) ∧
      (∀ j, m ≤ kmax → val e.first m ≤ j → val w j = val v j))
    ⟨rfl, fun k h1 h2 => absurd h1 (by omega), fun _ _ _ => rfl⟩
    (by
      rintro k w hk1 hk2 ⟨i1, i2, i3⟩
      have hlast := L.last (k + 1) (by omega)
      have hmono := L.mono k (k + 1) (by omega) (by omega)
      obtain ⟨w', g1, g2, g3⟩ := loop_upd (v := w) (lo := val e.first k)
        (n := val e.first (k + 1) - val e.first k) (body := body k) (H k) (by omega)
        (fun j w' a b c => hb k j w' hk1 (by omega) a (by omega) (by omega))
      refine ⟨w', ?_, by omega, ?_, ?_⟩
      · have e1 : vget e.first k = .ok (val e.first k) := vget_val (by rw [L.len]; omega)
        have e2 : vget e.first (k + 1) = .ok (val e.first (k + 1)) :=
          vget_val (by rw [L.len]; omega)
        rw [e1, Res.bind_ok, e2, Res.bind_ok]
        exact g1
      · intro k' a b c j d f
        rw [g3]
        by_cases hkk : k' = k
        · subst hkk
          rw [if_pos (by omega), i3 j (by omega) d]
        · have := L.mono (k' + 1) k (by omega) (by omega)
          rw [if_neg (by omega)]
          exact i2 k' a (by omega) (by omega) j d f
      · intro j a b
        rw [g3, if_neg (by omega)]
        exact i3 j (by omega) (by omega))
  refine ⟨w, h1, h2, ?_⟩
  intro k a b j c d
  exact h3 k a (by omega) (by omega) j c d

/-- Loop over the stretches, accumulating. -/
theorem stretch_sum {e : Env} (L : Lay e) {kmin kmax : Nat} (hk : kmax ≤ e.nebins)
    {body : Nat → Nat → ℝ → Res ℝ} (F : Nat → Nat → ℝ) (G : Nat → Nat → ℝ) (a0 : ℝ)
    (hb : ∀ k j acc, kmin ≤ k → k < kmax → val e.first k ≤ j → j < val e.first (k + 1) →
      body k j acc = .ok (acc + F k j))
    (hG : ∀ k, kmin ≤ k → k < kmax → ∀ j, val e.first k ≤ j → j < val e.first (k + 1) →
      F k j = G k (val e.filled j)) :
    loop (fun k acc => do
        let a ← vget e.first k
        let b ← vget e.first (k + 1)
        loop (body k) a (b - a) acc) kmin (kmax - kmin) a0 =
      .ok (a0 + ∑ k ∈ Finset.Ico kmin kmax, ∑ p ∈ Finset.range e.npix,
        if 0 < val e.data (k * e.npix + p) then G k p else 0) := by
  rw [loop_sum (fun k => ∑ p ∈ Finset.range e.npix,
        if 0 < val e.data (k * e.npix + p) then G k p else 0)]
  · rw [Finset.sum_Ico_eq_sum_range]
  · intro k acc h1 h2
    have e1 : vget e.first k = .ok (val e.first k) := vget_val (by rw [L.len]; omega)
    have e2 : vget e.first (k + 1) = .ok (val e.first (k + 1)) := vget_val (by rw [L.len]; omega)
    rw [e1, Res.bind_ok, e2, Res.bind_ok, loop_sum (F k), ← L.sum k (by omega)]
    · congr 2
      apply Finset.sum_congr rfl
      intro i hi
      rw [Finset.mem_range] at hi
      exact hG k (by omega) (by omega) _ (by omega) (by omega)
    · intro j s a b
      exact hb k j s h1 (by omega) a (by omega)

end Verif.Binned
