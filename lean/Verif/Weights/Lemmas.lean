import Verif.Weights.Model
import Verif.Weights.Spec
/-
Lemmas about the effective background and the weights.
-/
set_option linter.unusedSectionVars false
set_option linter.unusedSimpArgs false
set_option linter.unusedVariables false
namespace Verif.Weights
open Verif.Vec Verif.Weights.Spec
open scoped BigOperators

theorem divide_eq {a b : ℝ} (h : b ≠ 0) : divide a b = .ok (a / b) := by unfold divide; rw [if_neg h]

/-! ### Several components -/

theorem minLoop_some (b : ℝ) (xs : List ℝ) :
    ∃ m, minLoop (some b) xs = some m ∧ m ∈ b :: xs ∧ ∀ x ∈ b :: xs, m ≤ x := by
  induction xs generalizing b with
  | nil => exact ⟨b, rfl, by simp, by simp⟩
  | cons x xs ih =>
    obtain ⟨m, h1, h2, h3⟩ := ih (if b > x then x else b)
    refine ⟨m, by rw [minLoop, h1], ?_, ?_⟩
    · rcases List.mem_cons.1 h2 with h | h
      · rw [h]; split <;> simp
      · simp [h]
    · have h0 := h3 _ (List.mem_cons_self)
      intro y hy
      rcases List.mem_cons.1 hy with h | hy
      · subst h; apply h0.trans; split <;> [(apply le_of_lt; assumption); rfl]
      rcases List.mem_cons.1 hy with h | hy
      · subst h; apply h0.trans; split <;> [rfl; (apply le_of_not_gt; assumption)]
      · exact h3 y (List.mem_cons_of_mem _ hy)

theorem minLoop_none {xs : List ℝ} (h : xs ≠ []) : ∃ m, minLoop none xs = some m ∧ m ∈ xs ∧ ∀ x ∈ xs, m ≤ x := by
  cases xs with
  | nil => exact absurd rfl h
  | cons x xs => rw [minLoop]; exact minLoop_some x xs

theorem sumLoop_eq (b s : ℝ) (xs : List ℝ) (h : ∀ x ∈ xs, x ≠ 0) :
    sumLoop b s xs = .ok (s + (xs.map (fun x => (b / x) ^ 2)).sum) := by
  induction xs generalizing s with
  | nil => simp [sumLoop]
  | cons x xs ih =>
    rw [sumLoop, divide_eq (h x (by simp)), Res.bind_ok, ih _ (fun y hy => h y (by simp [hy]))]
    simp only [List.map_cons, List.sum_cons]
    congr 1; ring

theorem bMinAndSum_eq {xs : List ℝ} (h : xs ≠ []) : ∃ b ∈ xs, (∀ x ∈ xs, b ≤ x) ∧
    bMinAndSum xs = .ok (b, if b ≤ 0 then 0 else (xs.map (fun x => (b / x) ^ 2)).sum) := by
  obtain ⟨b, h1, h2, h3⟩ := minLoop_none h
  refine ⟨b, h2, h3, ?_⟩
  unfold bMinAndSum
  rw [h1]
  simp only []
  split
  · rfl
  · rename_i hb
    rw [sumLoop_eq _ _ _ (fun x hx => by have := h3 x hx; intro h0; rw [h0] at this; exact hb this), Res.bind_ok, zero_add]

theorem sum_bounds {xs : List ℝ} {b : ℝ} (hb : 0 < b) (hm : ∀ x ∈ xs, b ≤ x) :
    0 ≤ (xs.map (fun x => (b / x) ^ 2)).sum ∧ (xs.map (fun x => (b / x) ^ 2)).sum ≤ (xs.length : ℝ) ∧
      (b ∈ xs → 1 ≤ (xs.map (fun x => (b / x) ^ 2)).sum) := by
  induction xs with
  | nil => simp
  | cons x xs ih =>
    obtain ⟨i1, i2, i3⟩ := ih (fun y hy => hm y (by simp [hy]))
    have hx := hm x (by simp)
    have hx0 : 0 < x := hb.trans_le hx
    have q0 : 0 ≤ b / x := by positivity
    have q1 : b / x ≤ 1 := (div_le_one hx0).2 hx
    have s1 : (b / x) ^ 2 ≤ 1 := by nlinarith
    simp only [List.map_cons, List.sum_cons, List.length_cons, Nat.cast_add, Nat.cast_one]
    refine ⟨by positivity, by linarith, fun hmem => ?_⟩
    rcases List.mem_cons.1 hmem with h | h
    · rw [← h, div_self hb.ne']; linarith
    · have := i3 h; nlinarith

theorem alphaWts_eq {eps2 : ℝ} {xs : List ℝ} (he : 0 ≤ eps2) (h : xs ≠ []) (hx : ∀ x ∈ xs, 0 ≤ x) :
    ∃ b ∈ xs, (∀ x ∈ xs, b ≤ x) ∧ alphaWts eps2 xs = .ok (alpha eps2 b xs) := by
  obtain ⟨b, h1, h2, h3⟩ := bMinAndSum_eq h
  refine ⟨b, h1, h2, ?_⟩
  unfold alphaWts
  rw [h3, Res.bind_ok]
  simp only []
  have hb := hx b h1
  by_cases c : b ≤ 0
  · have : b = 0 := le_antisymm c hb
    subst this
    rw [if_pos le_rfl, divide_eq (by simp)]
    simp [alpha]
  · rw [if_neg c, divide_eq]
    · rfl
    · have := (sum_bounds (not_le.1 c) h2).1
      have : 0 ≤ eps2 * b * (xs.map (fun x => (b / x) ^ 2)).sum := by positivity
      linarith

theorem alpha_bounds {eps2 b : ℝ} {xs : List ℝ} (he : 0 ≤ eps2) (h : b ∈ xs) (h2 : ∀ x ∈ xs, b ≤ x) (h0 : 0 ≤ b) :
    1 / (xs.length : ℝ) ≤ alpha eps2 b xs ∧ alpha eps2 b xs ≤ 1 := by
  have hl : 1 ≤ (xs.length : ℝ) := by
    have := List.length_pos_of_mem h
    exact_mod_cast this
  unfold alpha
  rcases h0.eq_or_lt with c | c
  · rw [← c]
    simp only [mul_zero, add_zero, zero_mul, div_one, le_refl, and_true]
    rw [div_le_one (by linarith)]; exact hl
  · obtain ⟨s0, s1, s2⟩ := sum_bounds c h2
    have s2 := s2 h
    generalize (xs.map (fun x => (b / x) ^ 2)).sum = S at *
    have hp : 0 ≤ eps2 * b := by positivity
    generalize eps2 * b = z at *
    have hd : 0 < 1 + z * S := by nlinarith
    constructor
    · rw [div_le_div_iff₀ (by linarith) hd]
      nlinarith
    · rw [div_le_one hd]; nlinarith

theorem dot_eq {n idx : Nat} (h : 20 ≤ n) : ∃ b, dot n idx = .ok b := by
  unfold dot
  rw [if_neg (by omega)]
  exact ⟨_, rfl⟩

theorem dot_ub {n idx : Nat} (h : n < 20) : dot n idx = .ub := by
  unfold dot
  rw [if_pos (by omega)]

theorem column_eq {vs : List (List ℝ)} {n idx : Nat} (h : ∀ v ∈ vs, n ≤ v.length) (hi : idx < n) :
    column idx vs = .ok (vs.map (fun v => val v idx)) := by
  induction vs with
  | nil => rfl
  | cons v vs ih =>
    rw [column, vget_val (hi.trans_le (h v (by simp))), Res.bind_ok, ih (fun w hw => h w (by simp [hw])), Res.bind_ok]
    rfl

theorem column_ub {vs : List (List ℝ)} {idx : Nat} (h : ∃ v ∈ vs, v.length ≤ idx) : column idx vs = .ub := by
  induction vs with
  | nil => simp at h
  | cons v vs ih =>
    rw [column]
    by_cases c : v.length ≤ idx
    · rw [vget_ge _ _ c]; rfl
    · rw [vget_val (not_le.1 c), Res.bind_ok]
      obtain ⟨w, hw, hl⟩ := h
      rcases List.mem_cons.1 hw with e | hw
      · subst e; exact absurd hl c
      · rw [ih ⟨w, hw, hl⟩]; rfl

/-- A loop that sets the places one after the other. -/
theorem setLoop {body : Nat → List ℝ → Res (List ℝ)} {v : List ℝ} (f : Nat → ℝ)
    (h : ∀ i w, i < v.length → w.length = v.length → body i w = .ok (w.set i (f i))) :
    ∃ w, loop body 0 v.length v = .ok w ∧ w.length = v.length ∧ ∀ i < v.length, val w i = f i := by
  obtain ⟨w, h1, h2, h3⟩ := loop_inv (body := body) (lo := 0) (n := v.length) (s := v)
    (fun I w => w.length = v.length ∧ ∀ i < I, val w i = f i) ⟨rfl, by simp⟩ (by
      rintro I w - hI ⟨g1, g2⟩
      rw [Nat.zero_add] at hI
      refine ⟨_, h I w hI g1, by simp [g1], fun i hi => ?_⟩
      rw [val_set (by omega)]
      split
      · rename_i e; rw [e]
      · exact g2 i (by omega))
  rw [Nat.zero_add] at h3
  exact ⟨w, h1, h2, h3⟩

/-! ### The energies -/

theorem widths_eq (edges : List ℝ) : (widths edges).length = edges.length - 1 ∧
    ∀ k, k + 1 < edges.length → val (widths edges) k = val edges (k + 1) - val edges k := by
  induction edges with
  | nil => simp [widths]
  | cons a l ih =>
    cases l with
    | nil => simp [widths]
    | cons b l =>
      rw [widths]
      refine ⟨by simp [ih.1], fun k hk => ?_⟩
      cases k with
      | zero => simp
      | succ k =>
        rw [val_cons_succ, val_cons_succ, val_cons_succ]
        exact ih.2 k (by simpa using hk)

theorem centers_eq (edges : List ℝ) : (centers edges).length = edges.length - 1 ∧
    ∀ k, k + 1 < edges.length → val (centers edges) k = centre edges k := by
  induction edges with
  | nil => simp [centers]
  | cons a l ih =>
    cases l with
    | nil => simp [centers]
    | cons b l =>
      rw [centers]
      refine ⟨by simp [ih.1], fun k hk => ?_⟩
      cases k with
      | zero => simp [centre, mul_comm]
      | succ k =>
        rw [val_cons_succ, ih.2 k (by simpa using hk)]
        unfold centre
        simp only [val_cons_succ]

theorem centre_mono {edges : List ℝ} (hp : ∀ e ∈ edges, 0 < e) (hs : edges.Pairwise (· < ·)) {i j : Nat} (h : i ≤ j)
    (hj : j + 1 < edges.length) : 0 < centre edges i ∧ centre edges i ≤ centre edges j := by
  rw [pairwise_val] at hs
  have le : ∀ a b, a ≤ b → b < edges.length → val edges a ≤ val edges b := by
    intro a b hab hb
    rcases Nat.eq_or_lt_of_le hab with e | e
    · rw [e]
    · exact (hs a b e hb).le
  have p0 := hp _ (val_mem (show i < edges.length by omega))
  have p1 := hp _ (val_mem (show i + 1 < edges.length by omega))
  unfold centre
  refine ⟨Real.sqrt_pos.2 (by positivity), Real.sqrt_le_sqrt ?_⟩
  exact mul_le_mul (le _ _ h (by omega)) (le _ _ (by omega) hj) p1.le ((p0.trans_le (le _ _ h (by omega))).le)

/-! ### The effective background -/

theorem addBelow_eq (means : List ℝ) (emin addend : ℝ) (kStep p : Nat) (hp : p < kStep)
    (hm : ∀ i j, i ≤ j → j < means.length → val means i ≤ val means j) :
    ∀ kk (out : List ℝ), kk < means.length → (kk + 1) * kStep ≤ out.length →
      ∃ out', addBelow means emin addend kStep kk (kk * kStep + p) out = .ok out' ∧ out'.length = out.length ∧
        ∀ K q, q < kStep → val out' (K * kStep + q) =
          val out (K * kStep + q) + if q = p ∧ K ≤ kk ∧ emin ≤ val means K then addend else 0 := by
  intro kk
  induction kk with
  | zero =>
    intro out hk hl
    rw [addBelow, vget_val hk, Res.bind_ok]
    by_cases c : val means 0 < emin
    · rw [if_pos c]
      refine ⟨out, rfl, rfl, fun K q hq => ?_⟩
      rw [if_neg, add_zero]
      rintro ⟨-, h1, h2⟩
      obtain rfl : K = 0 := by omega
      linarith
    · rw [if_neg c, Nat.zero_mul, Nat.zero_add, vget_val (by omega), Res.bind_ok, vset_lt _ _ _ (by omega), Res.bind_ok, if_pos hp]
      refine ⟨_, rfl, by simp, fun K q hq => ?_⟩
      rw [val_set (by omega)]
      by_cases e : K * kStep + q = p
      · have hK : K = 0 := by
          rcases Nat.eq_zero_or_pos K with h | h
          · exact h
          · exfalso; have := Nat.mul_le_mul_right kStep h; omega
        subst hK
        rw [if_pos e, if_pos ⟨by omega, le_rfl, not_lt.1 c⟩, e]
      · rw [if_neg e, if_neg, add_zero]
        rintro ⟨h1, h2, -⟩
        apply e
        obtain rfl : K = 0 := by omega
        omega
  | succ kk ih =>
    intro out hk hl
    rw [addBelow, vget_val hk, Res.bind_ok]
    by_cases c : val means (kk + 1) < emin
    · rw [if_pos c]
      refine ⟨out, rfl, rfl, fun K q hq => ?_⟩
      rw [if_neg, add_zero]
      rintro ⟨-, h1, h2⟩
      have := hm K (kk + 1) h1 hk
      linarith
    · have hin : (kk + 1) * kStep + p < out.length := by
        have : (kk + 1 + 1) * kStep = (kk + 1) * kStep + kStep := by ring
        omega
      have hns : ¬ (kk + 1) * kStep + p < kStep := by
        have : (kk + 1) * kStep = kk * kStep + kStep := by ring
        omega
      rw [if_neg c, vget_val hin, Res.bind_ok, vset_lt _ _ _ hin, Res.bind_ok, if_neg hns]
      simp only []
      have hsub : (kk + 1) * kStep + p - kStep = kk * kStep + p := by
        have : (kk + 1) * kStep = kk * kStep + kStep := by ring
        omega
      rw [hsub]
      obtain ⟨out', h1, h2, h3⟩ := ih (out.set ((kk + 1) * kStep + p) (val out ((kk + 1) * kStep + p) + addend)) (by omega) (by
        rw [List.length_set]
        have : (kk + 1 + 1) * kStep = (kk + 1) * kStep + kStep := by ring
        omega)
      refine ⟨out', h1, by rw [h2]; simp, fun K q hq => ?_⟩
      rw [h3 K q hq, val_set hin]
      by_cases e : K * kStep + q = (kk + 1) * kStep + p
      · obtain ⟨hK, hq'⟩ : K = kk + 1 ∧ q = p := idx_inj hq hp e
        subst hK hq'
        rw [if_pos rfl, if_neg (by omega), if_pos ⟨rfl, le_rfl, not_lt.1 c⟩, add_zero]
      · rw [if_neg e]
        congr 1
        have hne : ¬ (q = p ∧ K = kk + 1) := by
          rintro ⟨a, b⟩; exact e (by rw [a, b])
        by_cases d : q = p ∧ K ≤ kk ∧ emin ≤ val means K
        · rw [if_pos d, if_pos ⟨d.1, by omega, d.2.2⟩]
        · rw [if_neg d, if_neg]
          rintro ⟨a, b, c'⟩
          exact d ⟨a, by have : ¬ K = kk + 1 := fun h => hne ⟨a, h⟩
                         omega, c'⟩

/-- The sum over the layers below `n`. -/
noncomputable def part (t : Nat → Nat → ℝ) (c : Nat → Nat → Prop) (n K q : Nat) : ℝ := by
  classical exact ∑ k ∈ (Finset.range n).filter (fun k => K ≤ k ∧ c k K), t k q

theorem part_succ (t : Nat → Nat → ℝ) (c : Nat → Nat → Prop) [∀ a b, Decidable (c a b)] (n K q : Nat) :
    part t c (n + 1) K q = part t c n K q + if K ≤ n ∧ c n K then t n q else 0 := by
  unfold part
  rw [Finset.range_add_one, Finset.filter_insert]
  split
  · rename_i h
    rw [Finset.sum_insert (by simp), add_comm]
  · rw [add_zero]

theorem part_zero (t : Nat → Nat → ℝ) (c : Nat → Nat → Prop) {n K : Nat} (h : n ≤ K) (q : Nat) : part t c n K q = 0 := by
  unfold part
  apply Finset.sum_eq_zero
  intro k hk
  simp only [Finset.mem_filter, Finset.mem_range] at hk
  omega

open Classical in
theorem addLayer_eq {means conv : List ℝ} {factor efact : ℝ} {kStep k : Nat} {out : List ℝ} (t : Nat → Nat → ℝ)
    (he : efact ≠ 0) (hk : k < means.length) (hc : conv.length = kStep) (hl : (k + 1) * kStep ≤ out.length)
    (hm : ∀ i j, i ≤ j → j < means.length → val means i ≤ val means j)
    (ht : ∀ q < kStep, t k q = val conv q * factor)
    (h0 : ∀ K < k, ∀ q < kStep, val out (K * kStep + q) =
      part t (fun a b => val means a / efact ≤ val means b) k K q) :
    ∃ out', addLayer means (val means k) factor efact kStep k conv (out, k * kStep) = .ok (out', (k + 1) * kStep) ∧
      out'.length = out.length ∧ ∀ K < k + 1, ∀ q < kStep, val out' (K * kStep + q) =
      part t (fun a b => val means a / efact ≤ val means b) (k + 1) K q := by
  set c : Nat → Nat → Prop := fun a b => val means a / efact ≤ val means b with hcdef
  have hs : (k + 1) * kStep = k * kStep + kStep := by ring
  unfold addLayer
  obtain ⟨s, h1, ⟨h2, h3⟩, h4, h5⟩ := loop_inv (lo := 0) (n := conv.length) (s := (out, k * kStep))
    (body := fun i s => do
      let c ← vget conv i
      let out ← vset s.1 s.2 0
      let emin ← divide (val means k) efact
      let out ← addBelow means emin (c * factor) kStep k s.2 out
      .ok (out, s.2 + 1))
    (fun I s => (s.2 = k * kStep + I ∧ s.1.length = out.length) ∧
      (∀ K < k + 1, ∀ q < I, val s.1 (K * kStep + q) = part t c (k + 1) K q) ∧
      (∀ K < k, ∀ q, I ≤ q → q < kStep → val s.1 (K * kStep + q) = part t c k K q))
    ⟨⟨by simp, rfl⟩, by simp, fun K hK q _ hq => h0 K hK q hq⟩ (by
      rintro I s - hI ⟨⟨g1, g2⟩, g3, g4⟩
      rw [Nat.zero_add, hc] at hI
      have hin : k * kStep + I < s.1.length := by omega
      obtain ⟨o, o1, o2, o3⟩ := addBelow_eq means (val means k / efact) (val conv I * factor) kStep I hI hm k
        (s.1.set (k * kStep + I) 0) hk (by simp; omega)
      refine ⟨(o, s.2 + 1), ?_, ⟨by simp only []; omega, by simp only []; rw [o2]; simp [g2]⟩, ?_, ?_⟩
      · rw [vget_val (by omega), Res.bind_ok, g1, vset_lt _ _ _ hin, Res.bind_ok, divide_eq he, Res.bind_ok, o1]
        rfl
      · intro K hK q hq
        simp only []
        rw [o3 K q (by omega), val_set hin, part_succ]
        by_cases e : q = I
        · subst e
          rw [ht q hI]
          by_cases e2 : K = k
          · subst e2
            rw [if_pos rfl, part_zero t c le_rfl]
            simp [hcdef]
          · rw [if_neg (fun h => e2 (idx_inj hI hI h).1), g4 K (by omega) q le_rfl hI]
            simp [hcdef]
        · rw [if_neg (fun h => e (idx_inj (by omega) hI h).2), if_neg (fun h => e h.1), add_zero, g3 K hK q (by omega), part_succ]
      · intro K hK q hq1 hq2
        simp only []
        rw [o3 K q hq2, val_set hin, if_neg (fun h => by have := (idx_inj hq2 hI h).2; omega),
          if_neg (fun h => by have := h.1; omega), add_zero, g4 K hK q (by omega) hq2])
  rw [Nat.zero_add] at h2 h4
  obtain ⟨s1, s2⟩ := s
  simp only [] at h2 h3 h4 h5
  refine ⟨s1, by rw [h1, h2, hc, hs], h3, fun K hK q hq => h4 K hK q (by omega)⟩

end Verif.Weights
