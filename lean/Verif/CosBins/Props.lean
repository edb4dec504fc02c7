import Verif.CosBins.Lemmas
import Verif.LtSum.Model
import Mathlib.Algebra.Order.Floor.Semiring
import Mathlib.Algebra.Order.Archimedean.Real.Basic
import Mathlib.Tactic.NormNum

/-!
C155: the limits of the inclination bins written to a livetime cube are those of the bins, and tell cubes with other bins apart.
-/

set_option linter.unusedVariables false
set_option linter.unusedSimpArgs false

namespace Verif.CosBins

open Spec

/-- As many rows as bins, from one down to the smallest cosine, each beginning where the one before ends; the lower limit is below the
upper one. -/
theorem C155_rows (root : Bool) {c : ℝ} (hc : c < 1) {n : Nat} (hn : 0 < n) :
    ∃ rows : List (ℝ × ℝ), writeCosbins root c n = .ok rows ∧ rows.length = n ∧ rows.head?.map Prod.snd = some 1 ∧
      rows.getLast?.map Prod.fst = some c ∧
      (∀ (k : Nat) (r r' : ℝ × ℝ), rows[k]? = some r → rows[k + 1]? = some r' → r.1 = r'.2) ∧ ∀ r ∈ rows, r.1 < r.2 := by
  have hn' : (0 : ℝ) < n := by exact_mod_cast hn
  refine ⟨_, write_ok root c hn, by simp, ?_, ?_, ?_, ?_⟩
  · obtain ⟨m, rfl⟩ : ∃ m, n = m + 1 := ⟨n - 1, by omega⟩
    rw [List.range_succ_eq_map]
    simp [edge, frac_zero]
  · obtain ⟨m, rfl⟩ : ∃ m, n = m + 1 := ⟨n - 1, by omega⟩
    rw [List.range_succ]
    simp [edge, frac_last root hn]
  · intro k r r' h1 h2
    have hk : k + 1 < n := by
      by_contra hcon
      rw [List.getElem?_eq_none (by simp; omega)] at h2
      cases h2
    rw [List.getElem?_map, List.getElem?_range (by omega)] at h1
    rw [List.getElem?_map, List.getElem?_range hk] at h2
    cases h1
    cases h2
    rfl
  · intro r hr
    obtain ⟨i, hi, rfl⟩ := List.mem_map.mp hr
    have hc' : 0 < 1 - c := by linarith
    have hf : frac root n i < frac root n (i + 1) := by
      have h1 : (i : ℝ) / n < ((i + 1 : ℕ) : ℝ) / n := by
        apply div_lt_div_of_pos_right _ hn'
        push_cast
        linarith
      have h0 : (0 : ℝ) ≤ (i : ℝ) / n := div_nonneg (Nat.cast_nonneg i) hn'.le
      unfold frac
      split
      · nlinarith
      · exact h1
    simp only [edge]
    nlinarith

/-- The limits of a row are those of the bin of the same number. -/
theorem C155_bins (root : Bool) {c : ℝ} (hc : c < 1) {n : Nat} (hn : 0 < n) :
    ∃ rows : List (ℝ × ℝ), writeCosbins root c n = .ok rows ∧ rows.length = n ∧
      ∀ (k : Nat) (r : ℝ × ℝ), rows[k]? = some r → ∀ mu ≤ 1, InRow r mu ↔ InBin root c n k mu := by
  refine ⟨_, write_ok root c hn, by simp, fun k r hr mu hm => ?_⟩
  have hk : k < n := by
    by_contra hcon
    rw [List.getElem?_eq_none (by simp; omega)] at hr
    cases hr
  rw [List.getElem?_map, List.getElem?_range hk] at hr
  cases hr
  unfold InRow InBin
  rw [edge_le root hc hn k hm, ← not_le, edge_le root hc hn (k + 1) hm, not_le]
  push_cast
  exact And.comm

/-- Every cosine above the smallest one is in exactly one row. -/
theorem C155_cover (root : Bool) {c : ℝ} (hc : c < 1) {n : Nat} (hn : 0 < n) :
    ∃ rows : List (ℝ × ℝ), writeCosbins root c n = .ok rows ∧
      (∀ mu, c < mu → mu ≤ 1 → ∃! k : Nat, ∃ r, rows[k]? = some r ∧ InRow r mu) ∧
      (∀ mu, mu ≤ c ∨ 1 < mu → ∀ r ∈ rows, ¬ InRow r mu) := by
  obtain ⟨rows, h1, h2, h3⟩ := C155_bins root hc hn
  have hn' : (0 : ℝ) < n := by exact_mod_cast hn
  have hc' : 0 < 1 - c := by linarith
  have hd0 : ∀ mu, mu ≤ 1 → 0 ≤ depth root c mu := by
    intro mu hm
    unfold depth
    split
    · exact Real.sqrt_nonneg _
    · exact div_nonneg (by linarith) hc'.le
  refine ⟨rows, h1, fun mu hlo hhi => ?_, ?_⟩
  · have hd1 : depth root c mu < 1 := by
      have hq : (1 - mu) / (1 - c) < 1 := by rw [div_lt_one hc']; linarith
      unfold depth
      split
      · rw [Real.sqrt_lt' one_pos]; simpa using hq
      · exact hq
    have hx0 : 0 ≤ n * depth root c mu := mul_nonneg hn'.le (hd0 mu hhi)
    have hk : ⌊n * depth root c mu⌋₊ < n := by
      rw [Nat.floor_lt hx0]
      nlinarith
    have hb : InBin root c n ⌊n * depth root c mu⌋₊ mu := ⟨Nat.floor_le hx0, Nat.lt_floor_add_one _⟩
    refine ⟨⌊n * depth root c mu⌋₊, ⟨rows[⌊n * depth root c mu⌋₊], by simp [h2, hk], ?_⟩, ?_⟩
    · exact (h3 _ _ (by simp [h2, hk]) mu hhi).mpr hb
    · rintro k ⟨r, hr, hr'⟩
      obtain ⟨e1, e2⟩ := (h3 k r hr mu hhi).mp hr'
      exact ((Nat.floor_eq_iff hx0).mpr ⟨e1, e2⟩).symm
  · intro mu hmu r hr hin
    rw [write_ok root c hn] at h1
    cases h1
    obtain ⟨i, hi, rfl⟩ := List.mem_map.mp hr
    rw [List.mem_range] at hi
    obtain ⟨a, b⟩ := hin
    have hf0 : 0 ≤ frac root n i := by
      have h0 : (0 : ℝ) ≤ (i : ℝ) / n := div_nonneg (Nat.cast_nonneg i) hn'.le
      unfold frac; split
      · exact mul_nonneg h0 h0
      · exact h0
    have hf1 : frac root n (i + 1) ≤ 1 := by
      have h0 : (0 : ℝ) ≤ ((i + 1 : ℕ) : ℝ) / n := div_nonneg (Nat.cast_nonneg _) hn'.le
      have h1 : ((i + 1 : ℕ) : ℝ) / n ≤ 1 := by
        rw [div_le_one hn']
        exact_mod_cast hi
      unfold frac; split
      · nlinarith
      · exact h1
    simp only [edge] at a b
    rcases hmu with hmu | hmu <;> nlinarith

/-- The check of `gtltsum` lets two cubes pass exactly if they have the same bins: the same number of bins, the same smallest cosine and the
same rule (which does not matter for a single bin). -/
theorem C155_check {root root' : Bool} {c c' : ℝ} {n n' : Nat} (hn : 0 < n) (hn' : 0 < n') (hc : c < 1) {fs : LtSum.FS} {a b : Nat}
    {f g : LtSum.LtFile} (ha : fs a = some f) (hb : fs b = some g) {rows rows' : List (ℝ × ℝ)} (hr : writeCosbins root c n = .ok rows)
    (hr' : writeCosbins root' c' n' = .ok rows') (hf : f.bounds = readBounds rows) (hg : g.bounds = readBounds rows') :
    (LtSum.check fs [a, b] = .ok () ↔ n = n' ∧ c = c' ∧ (root = root' ∨ n = 1)) ∧
    (LtSum.check fs [a, b] = .ok () ∨ LtSum.check fs [a, b] = .throws) := by
  rw [write_ok root c hn] at hr
  rw [write_ok root' c' hn'] at hr'
  cases hr
  cases hr'
  have hzip : ∀ l l' : List ℝ, LtSum.differ l l' = false ↔ l = l' := by
    intro l l'
    unfold LtSum.differ
    simp only [ne_eq, Bool.or_eq_false_iff, decide_eq_false_iff_not, not_not, List.any_eq_false, decide_eq_true_eq]
    constructor
    · rintro ⟨h1, h2⟩
      refine List.ext_getElem h1.symm (fun i hi hi' => ?_)
      have := h2 (l'[i], l[i]) (by
        rw [List.mem_iff_getElem]
        exact ⟨i, by simp [hi, hi'], by simp⟩)
      simpa using this.symm
    · rintro rfl
      refine ⟨rfl, fun p hp => ?_⟩
      obtain ⟨i, hi, rfl⟩ := List.mem_iff_getElem.mp hp
      simp
  have hcheck : LtSum.check fs [a, b] = if LtSum.differ f.bounds g.bounds then .throws else .ok () := by
    simp only [LtSum.check, LtSum.checkRest, LtSum.open', ha, hb, Res.bind_ok]
  rw [hcheck]
  have hiff : LtSum.differ f.bounds g.bounds = false ↔ n = n' ∧ c = c' ∧ (root = root' ∨ n = 1) := by
    rw [hzip, hf, hg, ← rows_eq (root := root) (root' := root') (c := c) (c' := c') (n' := n') hn hc]
    exact ⟨fun h => readBounds_inj h, fun h => congrArg readBounds h⟩
  cases hd : LtSum.differ f.bounds g.bounds with
  | true => rw [hd] at hiff; simpa using hiff
  | false => rw [hd] at hiff; simpa using hiff

/-- Without bins no limits can be computed. -/
theorem C155_no_bins (root : Bool) (c : ℝ) : writeCosbins root c 0 = .ub := by
  unfold writeCosbins computeCosbins
  simp [bound, List.range_succ]

/-! Cases. -/

/-- Two bins from one to zero, both ways. -/
example : writeCosbins false 0 2 = .ok [(1 / 2, 1), (0, 1 / 2)] ∧ writeCosbins true 0 2 = .ok [(3 / 4, 1), (0, 3 / 4)] := by
  refine ⟨?_, ?_⟩ <;> rw [write_ok _ _ (by norm_num)] <;> simp [List.range_succ, edge, frac] <;> norm_num

example : (0 : ℝ) < 1 ∧ 0 < 40 := by norm_num

end Verif.CosBins
