import Verif.Weights.Lemmas
/-
C70: the effective background of a map.
-/
set_option linter.unusedSectionVars false
set_option linter.unusedSimpArgs false
set_option linter.unusedVariables false
namespace Verif.Weights
open Verif.Vec Verif.Weights.Spec
open scoped BigOperators

/-- Edges of energies, a convolved map and an output that belong together. -/
structure Fits (peak : ℝ → ℝ) (edges : List ℝ) (conv : List (List ℝ)) (kStep : Nat) (out : List ℝ) : Prop where
  pos : ∀ e ∈ edges, 0 < e
  inc : edges.Pairwise (· < ·)
  layers : conv.length = edges.length - 1
  pixels : ∀ l ∈ conv, l.length = kStep
  size : out.length = (edges.length - 1) * kStep
  peak : ∀ e, 0 < e → 0 < peak e

/-- The value of a layer of the convolved map in a pixel. -/
noncomputable def layer (conv : List (List ℝ)) (k p : Nat) : ℝ := val (conv[k]?.getD []) p

variable {peak : ℝ → ℝ} {edges : List ℝ} {conv : List (List ℝ)} {kStep : Nat} {out : List ℝ}

/-- The effective background of a pixel in a layer is the sum of the counts under the peaks of
the point-spread functions of all layers from this one to the one at `efact` times its energy;
what the output contained before does not matter. -/
theorem C70_background (h : Fits peak edges conv kStep out) {efact : ℝ} (he : 0 < efact) :
    ∃ r, bkgEff peak efact edges conv kStep out = .ok r ∧ r.length = out.length ∧
      ∀ K < edges.length - 1, ∀ p < kStep, val r (K * kStep + p) =
        background peak efact edges (layer conv) (edges.length - 1) K p := by
  classical
  obtain ⟨m1, m2⟩ := centers_eq edges
  obtain ⟨w1, w2⟩ := widths_eq edges
  have hm : ∀ i j, i ≤ j → j < (centers edges).length → val (centers edges) i ≤ val (centers edges) j := by
    intro i j hij hj
    rw [m2 i (by omega), m2 j (by omega)]
    exact (centre_mono h.pos h.inc hij (by omega)).2
  set t : Nat → Nat → ℝ := underPeak peak edges (layer conv) with ht
  set c : Nat → Nat → Prop := fun a b => val (centers edges) a / efact ≤ val (centers edges) b with hc
  unfold bkgEff
  obtain ⟨s, h1, ⟨h2, h3⟩, h4⟩ := loop_inv (lo := 0) (n := edges.length - 1) (s := (out, 0))
    (body := fun k s => do
      let mean ← vget (centers edges) k
      let w ← vget (widths edges) k
      let factor ← divide w (peak mean)
      let layer ← vget conv k
      addLayer (centers edges) mean factor efact kStep k layer s)
    (fun k s => (s.2 = k * kStep ∧ s.1.length = out.length) ∧
      ∀ K < k, ∀ q < kStep, val s.1 (K * kStep + q) = part t c k K q)
    ⟨⟨by simp, rfl⟩, by simp⟩ (by
      rintro k ⟨s1, s2⟩ - hk ⟨⟨g1, g2⟩, g3⟩
      simp only [] at g1 g2 g3
      rw [Nat.zero_add] at hk
      have hck : k < conv.length := by rw [h.layers]; exact hk
      have hpk := h.peak _ (centre_mono h.pos h.inc (le_refl k) (by omega)).1
      have hlay : layer conv k = val conv[k] := by
        funext p
        simp [layer, List.getElem?_eq_getElem hck]
      obtain ⟨o, o1, o2, o3⟩ := addLayer_eq (means := centers edges) (conv := conv[k])
        (factor := val (widths edges) k / peak (val (centers edges) k)) (k := k) (out := s1) t he.ne' (by omega)
        (h.pixels _ (List.getElem_mem hck)) (by
          rw [g2, h.size]; exact Nat.mul_le_mul_right _ (by omega)) hm (by
          intro q hq
          rw [ht]
          unfold underPeak
          rw [hlay, m2 k (by omega), w2 k (by omega), mul_div_assoc]) g3
      refine ⟨(o, (k + 1) * kStep), ?_, ⟨rfl, by simp only []; rw [o2, g2]⟩, o3⟩
      rw [vget_val (by omega), Res.bind_ok, vget_val (by omega), Res.bind_ok,
        divide_eq (by rw [m2 k (by omega)]; exact hpk.ne'), Res.bind_ok, vget_lt _ _ hck, Res.bind_ok, g1, o1])
  rw [Nat.zero_add] at h4
  refine ⟨s.1, by rw [h1]; rfl, h3, fun K hK p hp => ?_⟩
  rw [h4 K hK p hp]
  unfold part background
  apply Finset.sum_congr _ (fun _ _ => rfl)
  ext k
  simp only [Finset.mem_filter, Finset.mem_range, hc]
  constructor
  · rintro ⟨a, b, d⟩
    refine ⟨a, b, ?_⟩
    rwa [m2 k (by omega), m2 K (by omega), div_le_iff₀ he, mul_comm] at d
  · rintro ⟨a, b, d⟩
    refine ⟨a, b, ?_⟩
    rwa [m2 k (by omega), m2 K (by omega), div_le_iff₀ he, mul_comm]

/-- The background is not negative for a map without negative values, includes the counts of the
layer itself as soon as `efact` is at least one, and grows with `efact`. -/
theorem C70_grows (h : Fits peak edges conv kStep out) (hnn : ∀ l ∈ conv, ∀ x ∈ l, 0 ≤ x) {e1 e2 : ℝ} (he : 1 ≤ e1) (h12 : e1 ≤ e2) :
    ∃ r1 r2, bkgEff peak e1 edges conv kStep out = .ok r1 ∧ bkgEff peak e2 edges conv kStep out = .ok r2 ∧
      ∀ K < edges.length - 1, ∀ p < kStep, 0 ≤ val r1 (K * kStep + p) ∧
        underPeak peak edges (layer conv) K p ≤ val r1 (K * kStep + p) ∧ val r1 (K * kStep + p) ≤ val r2 (K * kStep + p) := by
  classical
  obtain ⟨r1, a1, b1, c1⟩ := C70_background h (show 0 < e1 by linarith)
  obtain ⟨r2, a2, b2, c2⟩ := C70_background h (show 0 < e2 by linarith)
  have hup : ∀ k < edges.length - 1, ∀ p, 0 ≤ underPeak peak edges (layer conv) k p := by
    intro k hk p
    unfold underPeak
    have hpk := h.peak _ (centre_mono h.pos h.inc (le_refl k) (by omega)).1
    have hw : val edges k < val edges (k + 1) := pairwise_val.1 h.inc k (k + 1) (by omega) (by omega)
    have hl : 0 ≤ layer conv k p := by
      unfold layer
      have hck : k < conv.length := by rw [h.layers]; exact hk
      rw [List.getElem?_eq_getElem hck, Option.getD_some]
      by_cases hp : p < conv[k].length
      · exact hnn _ (List.getElem_mem hck) _ (val_mem hp)
      · rw [val_ge (by omega)]
    exact div_nonneg (mul_nonneg hl (by linarith)) hpk.le
  refine ⟨r1, r2, a1, a2, fun K hK p hp => ?_⟩
  have hcK := (centre_mono h.pos h.inc (le_refl K) (by omega)).1
  rw [c1 K hK p hp, c2 K hK p hp]
  unfold background
  refine ⟨Finset.sum_nonneg fun k hk => hup k (by simpa using (Finset.mem_filter.1 hk).1) p, ?_, ?_⟩
  · apply Finset.single_le_sum (f := fun k => underPeak peak edges (layer conv) k p)
      (fun k hk => hup k (by simpa using (Finset.mem_filter.1 hk).1) p)
    simp only [Finset.mem_filter, Finset.mem_range]
    exact ⟨hK, le_rfl, by nlinarith⟩
  · apply Finset.sum_le_sum_of_subset_of_nonneg
    · intro k hk
      simp only [Finset.mem_filter, Finset.mem_range] at hk ⊢
      exact ⟨hk.1, hk.2.1, hk.2.2.trans (by nlinarith)⟩
    · intro k hk _
      exact hup k (by simpa using (Finset.mem_filter.1 hk).1) p

/-- For a factor below one no layer has any background, not even its own counts, and nothing is
said about it. -/
theorem C70_below_one_violates (h : Fits peak edges conv kStep out) {efact : ℝ} (he : 0 < efact) (h1 : efact < 1) :
    ∃ r, bkgEff peak efact edges conv kStep out = .ok r ∧ r.length = out.length ∧
      ∀ K < edges.length - 1, ∀ p < kStep, val r (K * kStep + p) = 0 := by
  classical
  obtain ⟨r, a, b, c⟩ := C70_background h he
  refine ⟨r, a, b, fun K hK p hp => ?_⟩
  rw [c K hK p hp]
  unfold background
  apply Finset.sum_eq_zero
  intro k hk
  simp only [Finset.mem_filter, Finset.mem_range] at hk
  obtain ⟨hp1, hp2⟩ := centre_mono h.pos h.inc hk.2.1 (by omega)
  exfalso
  nlinarith [hk.2.2]

/-- Two layers of two pixels. -/
theorem fits_example : Fits (fun _ => 2) [1, 2, 4] [[3, 5], [7, 11]] 2 [0, 0, 0, 0] where
  pos := by intro e he; simp at he; rcases he with h | h | h <;> rw [h] <;> norm_num
  inc := by simp; norm_num
  layers := rfl
  pixels := by simp
  size := rfl
  peak := fun _ _ => by norm_num

example : ∃ r, bkgEff (fun _ => 2) 2 [1, 2, 4] [[3, 5], [7, 11]] 2 [0, 0, 0, 0] = .ok r ∧ r.length = 4 ∧
      ∀ K < 2, ∀ p < 2, val r (K * 2 + p) =
        background (fun _ => 2) 2 [1, 2, 4] (layer [[3, 5], [7, 11]]) 2 K p :=
  C70_background fits_example (by norm_num)

end Verif.Weights
