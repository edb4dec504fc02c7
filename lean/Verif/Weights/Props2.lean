import Verif.Weights.Lemmas
/-
C71: the weights of a fit.
-/
set_option linter.unusedSectionVars false
set_option linter.unusedSimpArgs false
set_option linter.unusedVariables false
namespace Verif.Weights
open Verif.Vec Verif.Weights.Spec
open scoped BigOperators

/-- Maps of components: at least one, all with `n` values, none negative. -/
structure Maps (ms : List (List ℝ)) (n : Nat) : Prop where
  some : ms ≠ []
  size : ∀ m ∈ ms, m.length = n
  nonneg : ∀ m ∈ ms, ∀ x ∈ m, 0 ≤ x

/-- The map of the factors for several components: at each place the formula for the backgrounds
of the components there, a number between one over the number of components and one. -/
theorem C71_alpha_partial {ms : List (List ℝ)} {n : Nat} {eps2 : ℝ} (h : Maps ms n) (hn : 20 ≤ n) (he : 0 ≤ eps2) :
    ∃ r, makeAlphaMap eps2 ms = .ok (some r) ∧ r.length = n ∧ ∀ i < n,
      ∃ b ∈ ms.map (fun m => val m i), (∀ x ∈ ms.map (fun m => val m i), b ≤ x) ∧
        val r i = alpha eps2 b (ms.map (fun m => val m i)) ∧ 1 / (ms.length : ℝ) ≤ val r i ∧ val r i ≤ 1 := by
  have hcol : ∀ i < n, ∀ x ∈ ms.map (fun m => val m i), 0 ≤ x := by
    intro i hi x hx
    obtain ⟨m, hm, rfl⟩ := List.mem_map.1 hx
    exact h.nonneg m hm _ (val_mem (by rw [h.size m hm]; exact hi))
  have key : ∀ i, ∃ a, i < n → alphaWts eps2 (ms.map (fun m => val m i)) = .ok a ∧
      ∃ b ∈ ms.map (fun m => val m i), (∀ x ∈ ms.map (fun m => val m i), b ≤ x) ∧
        a = alpha eps2 b (ms.map (fun m => val m i)) ∧ 1 / (ms.length : ℝ) ≤ a ∧ a ≤ 1 := by
    intro i
    by_cases hi : i < n
    · obtain ⟨b, h1, h2, h3⟩ := alphaWts_eq he (show ms.map (fun m => val m i) ≠ [] by simpa using h.some) (hcol i hi)
      refine ⟨_, fun _ => ⟨h3, b, h1, h2, rfl, ?_⟩⟩
      have := alpha_bounds he h1 h2 (hcol i hi b h1)
      simpa using this
    · exact ⟨0, fun h => absurd h hi⟩
  choose f hf using key
  cases ms with
  | nil => exact absurd rfl h.some
  | cons m ms =>
    have hl := h.size m (by simp)
    rw [makeAlphaMap]
    unfold alphaVector
    obtain ⟨r, r1, r2, r3⟩ := setLoop (v := m) (body := fun idx out => do
        let _ ← dot out.length idx
        let xs ← column idx (m :: ms)
        let a ← alphaWts eps2 xs
        vset out idx a) f (by
      intro i w hi hw
      obtain ⟨d, hd⟩ := dot_eq (n := w.length) (idx := i) (by omega)
      rw [hd, Res.bind_ok, column_eq (n := n) (fun v hv => (h.size v hv).ge) (by omega), Res.bind_ok, (hf i (by omega)).1,
        Res.bind_ok, vset_lt _ _ _ (by omega)])
    refine ⟨r, by rw [r1]; rfl, by omega, fun i hi => ?_⟩
    rw [r3 i (by omega)]
    exact (hf i hi).2

/-- A single component has the factor one everywhere. -/
theorem C71_single {m : List ℝ} {eps2 : ℝ} (hm : ∀ x ∈ m, 0 ≤ x) (hn : 20 ≤ m.length) (he : 0 ≤ eps2) :
    makeAlphaMap eps2 [m] = .ok (some (List.replicate m.length 1)) := by
  obtain ⟨r, h1, h2, h3⟩ := C71_alpha_partial (ms := [m]) (n := m.length) ⟨by simp, by simp, by simpa using hm⟩ hn he
  rw [h1]
  congr 2
  apply ext_val (by simp [h2])
  intro k hk
  obtain ⟨-, -, -, -, a, b⟩ := h3 k (by omega)
  rw [val_lt (l := List.replicate m.length (1 : ℝ)) (by simp; omega)]
  simp at a ⊢
  exact le_antisymm b a

/-- Without a map of factors the weight is `1/(1 + ε² B)`, a number above zero and at most one
that falls with the background. -/
theorem C71_weights_partial {beff : List ℝ} {eps2 : ℝ} (hb : ∀ x ∈ beff, 0 ≤ x) (hn : 20 ≤ beff.length) (he : 0 ≤ eps2) :
    ∃ r, makeWtsMap eps2 none beff = .ok r ∧ r.length = beff.length ∧ (∀ i < beff.length,
      val r i = 1 / (1 + eps2 * val beff i) ∧ 0 < val r i ∧ val r i ≤ 1) ∧
      ∀ i < beff.length, ∀ j < beff.length, val beff i ≤ val beff j → val r j ≤ val r i := by
  unfold makeWtsMap getWts
  have hpos : ∀ i < beff.length, 0 < 1 + eps2 * val beff i := by
    intro i hi
    have := hb _ (val_mem hi)
    positivity
  obtain ⟨r, r1, r2, r3⟩ := setLoop (v := beff) (body := fun idx wts => do
      let _ ← dot beff.length idx
      let b ← vget beff idx
      let w ← divide 1 (1 + eps2 * b)
      vset wts idx (applyAlpha ((none : Option (List ℝ)).getD []) idx w)) (fun i => 1 / (1 + eps2 * val beff i)) (by
    intro i w hi hw
    obtain ⟨d, hd⟩ := dot_eq (n := beff.length) (idx := i) hn
    rw [hd, Res.bind_ok, vget_val hi, Res.bind_ok, divide_eq (hpos i hi).ne', Res.bind_ok, vset_lt _ _ _ (by omega)]
    simp [applyAlpha])
  refine ⟨r, r1, r2, fun i hi => ?_, fun i hi j hj hij => ?_⟩
  · rw [r3 i hi]
    refine ⟨rfl, one_div_pos.2 (hpos i hi), ?_⟩
    rw [div_le_one (hpos i hi)]
    have := hb _ (val_mem hi)
    nlinarith
  · rw [r3 i hi, r3 j hj]
    apply one_div_le_one_div_of_le (hpos i hi)
    nlinarith

/-- With the map of factors of components to which the background belongs the weight is
`α/(1 + ε² B)`, above zero and at most one. -/
theorem C71_product_partial {ms : List (List ℝ)} {n : Nat} {eps2 : ℝ} (h : Maps ms n) (hn : 20 ≤ n) (he : 0 ≤ eps2)
    {beff : List ℝ} (hb : beff ∈ ms) :
    ∃ a r, makeAlphaMap eps2 ms = .ok (some a) ∧ makeWtsMap eps2 (some a) beff = .ok r ∧ r.length = n ∧
      ∀ i < n, val r i = val a i / (1 + eps2 * val beff i) ∧ 0 < val r i ∧ val r i ≤ 1 := by
  obtain ⟨a, a1, a2, a3⟩ := C71_alpha_partial h hn he
  have hl := h.size beff hb
  have hpos : ∀ i < beff.length, 1 ≤ 1 + eps2 * val beff i := by
    intro i hi
    have := h.nonneg _ hb _ (val_mem hi)
    nlinarith
  obtain ⟨r, r1, r2, r3⟩ := setLoop (v := beff) (body := fun idx wts => do
      let _ ← dot beff.length idx
      let b ← vget beff idx
      let w ← divide 1 (1 + eps2 * b)
      vset wts idx (applyAlpha ((some a).getD []) idx w)) (fun i => val a i / (1 + eps2 * val beff i)) (by
    intro i w hi hw
    obtain ⟨d, hd⟩ := dot_eq (n := beff.length) (idx := i) (by omega)
    rw [hd, Res.bind_ok, vget_val hi, Res.bind_ok, divide_eq (by have := hpos i hi; linarith), Res.bind_ok, vset_lt _ _ _ (by omega)]
    simp only [applyAlpha, Option.getD_some]
    rw [getElem?_val (by omega)]
    simp only []
    congr 2
    ring)
  refine ⟨a, r, a1, r1, by omega, fun i hi => ?_⟩
  rw [r3 i (by omega)]
  obtain ⟨-, -, -, -, c1, c2⟩ := a3 i hi
  have hp := hpos i (by omega)
  have hm : 0 < (ms.length : ℝ) := by
    have := List.length_pos_of_mem hb
    exact_mod_cast this
  have c0 : 0 < val a i := lt_of_lt_of_le (by positivity) c1
  refine ⟨rfl, by positivity, ?_⟩
  rw [div_le_one (by linarith)]
  linarith

/-- `n` components with the same background count as one with `n` times the background. -/
theorem C71_equal {m : List ℝ} {k : Nat} {eps2 : ℝ} (hm : ∀ x ∈ m, 0 ≤ x) (hk : 0 < k) (hn : 20 ≤ m.length) (he : 0 ≤ eps2) :
    ∃ a r, makeAlphaMap eps2 (List.replicate k m) = .ok (some a) ∧ makeWtsMap eps2 (some a) m = .ok r ∧
      ∀ i < m.length, val r i = 1 / (1 + eps2 * (k * val m i)) := by
  have h : Maps (List.replicate k m) m.length :=
    ⟨by simp; omega, fun v hv => by rw [(List.mem_replicate.1 hv).2], fun v hv => by rw [(List.mem_replicate.1 hv).2]; exact hm⟩
  obtain ⟨a, a1, a2, a3⟩ := C71_alpha_partial h hn he
  obtain ⟨a', r, b1, b2, b3, b4⟩ := C71_product_partial h hn he (beff := m) (by simp; omega)
  rw [a1] at b1
  cases b1
  refine ⟨a, r, a1, b2, fun i hi => ?_⟩
  obtain ⟨e1, -, -⟩ := b4 i hi
  obtain ⟨b, c1, -, c3, -, -⟩ := a3 i hi
  rw [e1, c3]
  have hbi : b = val m i := by
    obtain ⟨v, hv, rfl⟩ := List.mem_map.1 c1
    rw [(List.mem_replicate.1 hv).2]
  have h0 := hm _ (val_mem hi)
  rw [hbi]
  unfold alpha
  rw [List.map_replicate, List.map_replicate, List.sum_replicate]
  rcases h0.eq_or_lt with c | c
  · rw [← c]; simp
  · rw [div_self c.ne']
    have p1 : 0 < 1 + eps2 * val m i := by positivity
    simp only [one_pow, nsmul_eq_mul, mul_one]
    rw [div_div, mul_comm (1 + eps2 * val m i * k), ← div_div, div_self p1.ne']
    congr 2
    ring

/-- A map with fewer than twenty values, and at least one, always ends in a division by zero. -/
theorem C71_small_violates {m : List ℝ} (ms : List (List ℝ)) (eps2 : ℝ) (a : Option (List ℝ)) (h0 : m ≠ []) (hn : m.length < 20) :
    makeAlphaMap eps2 (m :: ms) = .ub ∧ makeWtsMap eps2 a m = .ub := by
  obtain ⟨n, hl⟩ : ∃ n, m.length = n + 1 := by
    cases m with
    | nil => exact absurd rfl h0
    | cons x l => exact ⟨l.length, rfl⟩
  constructor
  · rw [makeAlphaMap]
    unfold alphaVector
    rw [hl, loop, dot_ub (by omega)]
    rfl
  · unfold makeWtsMap getWts
    rw [hl, loop, dot_ub (by omega)]
    rfl

/-- A component with fewer values than the first one is read beyond its end. -/
theorem C71_sizes_violates {m : List ℝ} {ms : List (List ℝ)} (eps2 : ℝ) (h : ∃ v ∈ ms, v.length < m.length) :
    ∀ r, makeAlphaMap eps2 (m :: ms) ≠ .ok r := by
  intro r hr
  obtain ⟨v, hv, hl⟩ := h
  unfold makeAlphaMap at hr
  obtain ⟨w, hw, -⟩ := Res.bind_eq_ok.1 hr
  unfold alphaVector at hw
  -- the passage at the end of the short vector
  have : ∀ lo n (s : List ℝ), lo ≤ v.length → v.length < lo + n →
      ∀ w, loop (fun idx out => do
        let _ ← dot out.length idx
        let xs ← column idx (m :: ms)
        let a ← alphaWts eps2 xs
        vset out idx a) lo n s ≠ .ok w := by
    intro lo n
    induction n generalizing lo with
    | zero => intro s h1 h2; omega
    | succ n ih =>
      intro s h1 h2 w hw
      rw [loop] at hw
      obtain ⟨s', hs, hw⟩ := Res.bind_eq_ok.1 hw
      by_cases c : lo = v.length
      · obtain ⟨_, _, hs⟩ := Res.bind_eq_ok.1 hs
        rw [column_ub ⟨v, by simp [hv], c.ge⟩] at hs
        cases hs
      · exact ih (lo + 1) s' (by omega) (by omega) w hw
  exact this 0 m.length m (by omega) (by omega) w hw

/-- A map of factors with fewer values than the background is accepted: the places beyond its end
get the weight without a factor. -/
theorem C71_short_violates {beff a : List ℝ} {eps2 : ℝ} (hb : ∀ x ∈ beff, 0 ≤ x) (hn : 20 ≤ beff.length) (he : 0 ≤ eps2)
    (hl : a.length < beff.length) :
    ∃ r, makeWtsMap eps2 (some a) beff = .ok r ∧ ∀ i, a.length ≤ i → i < beff.length → val r i = 1 / (1 + eps2 * val beff i) := by
  obtain ⟨r, r1, r2, r3⟩ := setLoop (v := beff) (body := fun idx wts => do
      let _ ← dot beff.length idx
      let b ← vget beff idx
      let w ← divide 1 (1 + eps2 * b)
      vset wts idx (applyAlpha ((some a).getD []) idx w)) (fun i => applyAlpha a i (1 / (1 + eps2 * val beff i))) (by
    intro i w hi hw
    obtain ⟨d, hd⟩ := dot_eq (n := beff.length) (idx := i) (by omega)
    have := hb _ (val_mem hi)
    rw [hd, Res.bind_ok, vget_val hi, Res.bind_ok, divide_eq (by positivity), Res.bind_ok, vset_lt _ _ _ (by omega)]
    rfl)
  refine ⟨r, r1, fun i h1 h2 => ?_⟩
  rw [r3 i h2]
  unfold applyAlpha
  rw [List.getElem?_eq_none h1]

/-- Two components of twenty values. -/
theorem maps_example : Maps [List.replicate 20 1, List.replicate 20 2] 20 where
  some := by simp
  size := by simp
  nonneg := by
    intro m hm x hx
    simp only [List.mem_cons, List.not_mem_nil, or_false] at hm
    rcases hm with h | h <;> rw [h] at hx <;> rw [(List.mem_replicate.1 hx).2] <;> norm_num

example : ∃ a r, makeAlphaMap 1 [List.replicate 20 1, List.replicate 20 2] = .ok (some a) ∧
    makeWtsMap 1 (some a) (List.replicate 20 2) = .ok r ∧ r.length = 20 ∧
      ∀ i < 20, val r i = val a i / (1 + 1 * val (List.replicate 20 (2 : ℝ)) i) ∧ 0 < val r i ∧ val r i ≤ 1 :=
  C71_product_partial maps_example le_rfl (by norm_num) (by simp)

example : makeWtsMap 1 none [1, 2] = .ub := (C71_small_violates [] 1 none (by simp) (by simp)).2

example : ∃ r, makeWtsMap 1 (some [1 / 2]) (List.replicate 20 3) = .ok r ∧
    ∀ i, 1 ≤ i → i < 20 → val r i = 1 / (1 + 1 * val (List.replicate 20 (3 : ℝ)) i) := by
  have := C71_short_violates (beff := List.replicate 20 3) (a := [1 / 2]) (eps2 := 1)
    (fun x hx => by rw [(List.mem_replicate.1 hx).2]; norm_num) (by simp) (by norm_num) (by simp)
  simpa using this

end Verif.Weights
