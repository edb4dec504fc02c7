import Mathlib.Tactic.NormNum
import Mathlib.Tactic.Ring
import Mathlib.Tactic.Linarith
import Mathlib.Tactic.FieldSimp
import Verif.Profile.Model
import Verif.Profile.Spec
import Verif.TrapQuad.Props
/-
C63: radial profiles and the position of radial sources.
-/
set_option linter.unusedSectionVars false
set_option linter.unusedSimpArgs false
set_option linter.unusedVariables false
namespace Verif.Profile
open Verif.Profile.Spec Real

theorem inc_lt {d : List (ℝ × ℝ)} (h : Increasing d) {i j : Nat} (hij : i < j) (hj : j < d.length) :
    (d[i]'(by omega)).1 < (d[j]).1 :=
  List.pairwise_iff_getElem.1 h i j _ hj hij

theorem inc_le {d : List (ℝ × ℝ)} (h : Increasing d) {i j : Nat} (hij : i ≤ j) (hj : j < d.length) :
    (d[i]'(by omega)).1 ≤ (d[j]).1 := by
  rcases Nat.lt_or_ge i j with h1 | h1
  · exact (inc_lt h h1 hj).le
  · obtain rfl : i = j := by omega
    exact le_rfl

/-- The index found. -/
theorem index_eq {d : List (ℝ × ℝ)} (h : Increasing d) {t : ℝ} {i : Nat} (hi : i + 1 < d.length)
    (h1 : (d[i]).1 ≤ t ∨ i = 0) (h2 : t < (d[i + 1]).1 ∨ i + 2 = d.length) : index d t = .ok i := by
  classical
  unfold index
  rw [List.getElem?_eq_getElem (show 0 < d.length by omega),
    List.getElem?_eq_getElem (show d.length - 1 < d.length by omega)]
  simp only [Res.ok.injEq]
  by_cases hb : (d[d.length - 1]).1 ≤ t
  · rw [if_pos hb]
    have he : i + 2 = d.length := by
      rcases h2 with h2 | h2
      · have := inc_le h (show i + 1 ≤ d.length - 1 by omega) (by omega)
        linarith
      · exact h2
    unfold sizeMinus2
    rw [if_neg (by omega)]
    omega
  · rw [if_neg hb]
    have h2' : t < (d[i + 1]).1 := by
      rcases h2 with h2 | h2
      · exact h2
      · have : d.length - 1 = i + 1 := by omega
        simp only [this] at hb
        exact not_le.1 hb
    by_cases hf : (d[0]).1 < t
    · rw [if_pos hf]
      have h1' : (d[i]).1 ≤ t := by
        rcases h1 with h1 | h1
        · exact h1
        · subst h1; exact hf.le
      have : d.findIdx (fun p => decide (t < p.1)) = i + 1 := by
        rw [List.findIdx_eq hi]
        refine ⟨decide_eq_true h2', fun j hj => ?_⟩
        rw [decide_eq_false_iff_not, not_lt]
        exact (inc_le h (show j ≤ i by omega) (by omega)).trans h1'
      rw [this]
      rfl
    · rw [if_neg hf]
      rcases h1 with h1 | h1
      · rcases Nat.eq_zero_or_pos i with h0 | h0
        · exact h0.symm
        · have := inc_lt h h0 (by omega)
          linarith
      · exact h1.symm

/-- Between two points of the table the profile is the straight line through them; before the
first and after the last point the first and the last line go on. -/
theorem C63_profile (d : List (ℝ × ℝ)) (h : Increasing d) (t : ℝ) (i : Nat) (hi : i + 1 < d.length)
    (h1 : (d[i]).1 ≤ t ∨ i = 0) (h2 : t ≤ (d[i + 1]).1 ∨ i + 2 = d.length) :
    valueAtOffset d t = .ok (line t d[i] d[i + 1]) := by
  have key : ∀ (j : Nat) (hj : j + 1 < d.length), index d t = .ok j →
      valueAtOffset d t = .ok (line t d[j] d[j + 1]) := by
    intro j hj hidx
    unfold valueAtOffset ptAt
    rw [hidx, Res.bind_ok, List.getElem?_eq_getElem (show j < d.length by omega), List.getElem?_eq_getElem hj]
    simp only [Res.bind_ok]
    have hne : (d[j + 1]).1 - (d[j]).1 ≠ 0 := by
      have := inc_lt h (Nat.lt_succ_self j) hj
      intro h'; simp only [Nat.succ_eq_add_one] at this; linarith
    rw [if_neg hne]
    unfold line
    congr 1
    field_simp
    ring
  by_cases he : i + 2 = d.length
  · exact key i hi (index_eq h hi h1 (Or.inr he))
  · rcases lt_or_eq_of_le (h2.resolve_right he) with hlt | heq
    · exact key i hi (index_eq h hi h1 (Or.inl hlt))
    · have hs : i + 1 + 1 < d.length := by omega
      rw [key (i + 1) hs (index_eq h hs (Or.inl heq.ge) (Or.inl (heq ▸ inc_lt h (Nat.lt_succ_self _) hs)))]
      have hA := inc_lt h (Nat.lt_succ_self (i + 1)) hs
      have hB := inc_lt h (Nat.lt_succ_self i) hi
      simp only [Nat.succ_eq_add_one] at hA hB
      unfold line
      rw [heq]
      have hA' : (d[i + 1 + 1]).1 - (d[i + 1]).1 ≠ 0 := by intro h; linarith
      have hB' : (d[i + 1]).1 - (d[i]).1 ≠ 0 := by intro h; linarith
      congr 1
      rw [div_eq_div_iff hA' hB']
      ring

/-- At the points of the table the profile has the tabulated values. -/
theorem C63_nodes (d : List (ℝ × ℝ)) (h : Increasing d) (hn : 2 ≤ d.length) (i : Nat) (hi : i < d.length) :
    valueAtOffset d (d[i]).1 = .ok (d[i]).2 := by
  rcases Nat.lt_or_ge (i + 1) d.length with hs | hs
  · rw [C63_profile d h _ i hs (Or.inl le_rfl) (Or.inl (inc_lt h (Nat.lt_succ_self i) hs).le)]
    have hB := inc_lt h (Nat.lt_succ_self i) hs
    simp only [Nat.succ_eq_add_one] at hB
    have hB' : (d[i + 1]).1 - (d[i]).1 ≠ 0 := by intro h; linarith
    unfold line
    rw [sub_self, zero_mul, add_zero, mul_div_cancel_left₀ _ hB']
  · obtain ⟨k, rfl⟩ : ∃ k, i = k + 1 := ⟨i - 1, by omega⟩
    rw [C63_profile d h _ k hi (Or.inl (inc_lt h (Nat.lt_succ_self k) hi).le) (Or.inl le_rfl)]
    have hB := inc_lt h (Nat.lt_succ_self k) hi
    simp only [Nat.succ_eq_add_one] at hB
    have hB' : (d[k + 1]).1 - (d[k]).1 ≠ 0 := by intro h; linarith
    unfold line
    rw [sub_self, zero_mul, zero_add, mul_div_cancel_left₀ _ hB']

/-- Within the table a profile of non-negative values is not negative. -/
theorem C63_nonneg_partial (d : List (ℝ × ℝ)) (h : Increasing d) (hn : 2 ≤ d.length) (hp : ∀ p ∈ d, 0 ≤ p.2) (t : ℝ)
    (h1 : (d[0]).1 ≤ t) (h2 : t ≤ (d[d.length - 1]).1) : ∃ v, valueAtOffset d t = .ok v ∧ 0 ≤ v := by
  obtain ⟨i, hi, h3, h4⟩ : ∃ (i : Nat) (hi : i + 1 < d.length), (d[i]).1 ≤ t ∧ t ≤ (d[i + 1]).1 := by
    by_contra hcon
    have key : ∀ i (hi : i < d.length), (d[i]).1 ≤ t := by
      intro i
      induction i with
      | zero => intro _; exact h1
      | succ i ih =>
        intro hi
        by_contra hc
        exact hcon ⟨i, hi, ih (by omega), (not_le.1 hc).le⟩
    have he : d.length - 2 + 1 = d.length - 1 := by omega
    refine hcon ⟨d.length - 2, by omega, key _ (by omega), ?_⟩
    simp only [he]
    exact h2
  refine ⟨_, C63_profile d h t i hi (Or.inl h3) (Or.inl h4), ?_⟩
  have hB := inc_lt h (Nat.lt_succ_self i) hi
  simp only [Nat.succ_eq_add_one] at hB
  have ha := hp _ (List.getElem_mem (show i < d.length by omega))
  have hb := hp _ (List.getElem_mem hi)
  unfold line
  refine div_nonneg (add_nonneg (mul_nonneg ?_ ha) (mul_nonneg ?_ hb)) ?_ <;> linarith

/-- A profile that has fallen to zero at its last point is negative everywhere beyond it. -/
theorem C63_beyond_violates (d : List (ℝ × ℝ)) (h : Increasing d) (hn : 2 ≤ d.length)
    (h0 : (d[d.length - 1]).2 = 0) (h1 : 0 < (d[d.length - 2]).2) (t : ℝ) (ht : (d[d.length - 1]).1 < t) :
    ∃ v, valueAtOffset d t = .ok v ∧ v < 0 := by
  have he : d.length - 2 + 1 = d.length - 1 := by omega
  have hlt : (d[d.length - 2]).1 < (d[d.length - 1]).1 := inc_lt h (by omega) (by omega)
  refine ⟨_, C63_profile d h t (d.length - 2) (by omega) (Or.inl (by linarith)) (Or.inr (by omega)), ?_⟩
  unfold line
  simp only [he]
  rw [h0, mul_zero, add_zero]
  refine div_neg_of_neg_of_pos (mul_neg_of_neg_of_pos ?_ h1) ?_ <;> linarith

/-- A table with a single point cannot be evaluated anywhere. -/
theorem C63_single_violates (p : ℝ × ℝ) (t : ℝ) : valueAtOffset [p] t = .throws := by
  unfold valueAtOffset index
  simp only [List.length_singleton, Nat.sub_self, List.getElem?_cons_zero, Res.bind_ok]
  split
  · rfl
  · rename_i h
    rw [if_neg (by linarith [not_le.1 h])]
    rfl

/-- The reader accepts two points at the same angle, for which there is then no value. -/
theorem C63_equal_violates (a v w t : ℝ) :
    readTemplate [(a, v), (a, w)] = .ok [(a, v), (a, w)] ∧ valueAtOffset [(a, v), (a, w)] t = .ub := by
  constructor
  · unfold readTemplate readLoop readLoop readLoop
    simp
  · unfold valueAtOffset index
    simp only [List.length_cons, List.length_nil, List.getElem?_cons_zero, List.getElem?_cons_succ, Res.bind_ok,
      Nat.zero_add, Nat.add_sub_cancel, Nat.reduceAdd, Nat.reduceSub]
    split
    · simp [sizeMinus2, ptAt, Res.bind_ok]
    · rename_i h
      rw [if_neg (by linarith [not_le.1 h])]
      simp [ptAt, Res.bind_ok]

/-- What is read is what stands in the file; the angles must not decrease. -/
theorem C63_read (lines : List (ℝ × ℝ)) :
    (∀ out, readTemplate lines = .ok out → out = lines ∧ lines.IsChain fun p q => p.1 ≤ q.1) ∧
    ((lines.IsChain fun p q => p.1 ≤ q.1) → readTemplate lines = .ok lines) := by
  have key : ∀ (l pts : List (ℝ × ℝ)), (pts.IsChain fun p q => p.1 ≤ q.1) →
      (∀ out, readLoop l pts = .ok out → out = pts ++ l ∧ (pts ++ l).IsChain fun p q => p.1 ≤ q.1) ∧
      (((pts ++ l).IsChain fun p q => p.1 ≤ q.1) → readLoop l pts = .ok (pts ++ l)) := by
    intro l
    induction l with
    | nil =>
      intro pts hc
      rw [List.append_nil]
      exact ⟨fun out h => by rw [readLoop] at h; cases h; exact ⟨rfl, hc⟩, fun _ => by rw [readLoop]⟩
    | cons p l ih =>
      intro pts hc
      rw [readLoop]
      have happ : pts ++ p :: l = (pts ++ [p]) ++ l := by simp
      by_cases hlt : ∃ q, pts.getLast? = some q ∧ p.1 < q.1
      · rw [if_pos hlt]
        refine ⟨fun out h => (by cases h), fun h => ?_⟩
        obtain ⟨q, hq, hlt⟩ := hlt
        have := (List.isChain_append.1 h).2.2 q hq p (by simp)
        linarith
      · rw [if_neg hlt, happ]
        refine ih (pts ++ [p]) ?_
        refine List.isChain_append.2 ⟨hc, List.isChain_singleton p, fun q hq x hx => ?_⟩
        simp at hx
        subst hx
        exact not_lt.1 fun h => hlt ⟨q, hq, h⟩
  have := key lines [] List.isChain_nil
  unfold readTemplate
  simpa using this

/-- The flux of a profile is the trapezoidal rule in the angle. -/
theorem C63_integral (d : List (ℝ × ℝ)) (hn : 2 ≤ d.length) :
    angularIntegral d = .ok (TrapQuad.trapezoid
      (d.map fun p => (p.1 * π / 180, 2 * π * sin (p.1 * π / 180) * p.2))) := by
  unfold angularIntegral
  simp only []
  rw [TrapQuad.C26_trapezoid _ _ (by simp) (by simpa using hn)]
  congr 2
  rw [List.zip_map']
  refine List.map_congr_left fun p _ => ?_
  congr 1
  ring

/-! ### Where the source is -/

/-- The parameters do say where a profile is as long as it has neither been evaluated nor moved: its
values are those at the separation from the last position set, and the first of them fixes the
centre there. -/
theorem C63_center_partial (angle : ℝ × ℝ → ℝ × ℝ → ℝ) (s : State) (ps : List (ℝ × ℝ)) (p dir : ℝ × ℝ) (hs : s.center = none) :
    (∀ v, (∃ t, ((ps.foldl State.setRaDec s).setRaDec p).value angle dir = .ok (t, v)) ↔
      valueAtOffset s.pts (angle dir p) = .ok v) ∧
    ∀ t v, ((ps.foldl State.setRaDec s).setRaDec p).value angle dir = .ok (t, v) → t.getCenter = .ok p := by
  have key : ∀ ps : List (ℝ × ℝ), ∀ s : State, s.center = none →
      (ps.foldl State.setRaDec s).center = none ∧ (ps.foldl State.setRaDec s).pts = s.pts := by
    intro ps
    induction ps with
    | nil => intro s h; exact ⟨h, rfl⟩
    | cons q ps ih => intro s h; exact ih (s.setRaDec q) h
  obtain ⟨k1, k2⟩ := key ps s hs
  generalize ps.foldl State.setRaDec s = u at k1 k2
  unfold State.value State.setRaDec
  simp only [k1, k2]
  constructor
  · intro v
    constructor
    · rintro ⟨t, h⟩
      obtain ⟨x, h1, h2⟩ := Res.bind_eq_ok.1 h
      cases h2
      exact h1
    · intro h
      rw [h]
      exact ⟨_, rfl⟩
  · intro t v h
    obtain ⟨x, h1, h2⟩ := Res.bind_eq_ok.1 h
    cases h2
    rfl

/-- A change of the parameters of a profile that has been evaluated, or moved, before has no
effect on where it is. -/
theorem C63_center_violates (angle : ℝ × ℝ → ℝ × ℝ → ℝ) (s s' : State) (dir p dir' : ℝ × ℝ) (v : ℝ)
    (h : s.value angle dir = .ok (s', v)) :
    (s'.setRaDec p).getCenter = s'.getCenter ∧
    ∀ w, (∃ t, (s'.setRaDec p).value angle dir' = .ok (t, w)) ↔ ∃ t, s'.value angle dir' = .ok (t, w) := by
  unfold State.value at h
  simp only [] at h
  rw [Res.bind_eq_ok] at h
  obtain ⟨x, _, h⟩ := h
  simp only [Res.ok.injEq, Prod.mk.injEq] at h
  obtain ⟨rfl, rfl⟩ := h
  refine ⟨rfl, fun w => ?_⟩
  unfold State.setRaDec State.value
  simp only [Res.bind_eq_ok, Res.ok.injEq, Prod.mk.injEq]
  constructor
  · rintro ⟨_, y, h1, _, h2⟩; exact ⟨_, y, h1, rfl, h2⟩
  · rintro ⟨_, y, h1, _, h2⟩; exact ⟨_, y, h1, rfl, h2⟩

/-- The centre of a profile that has neither been evaluated nor moved is a null pointer. -/
theorem C63_null_violates (norm ra dec : ℝ) (pts : List (ℝ × ℝ)) :
    (State.mk norm ra dec none pts).getCenter = .ub ∧
    ∀ p, ((State.mk norm ra dec none pts).setCenter p).getCenter = .ok p := ⟨rfl, fun _ => rfl⟩

/-- After an assignment of a profile without a centre the old centre is kept. -/
theorem C63_assign_violates (lhs rhs : State) (c : ℝ × ℝ) (h1 : lhs.center = some c) (h2 : rhs.center = none) :
    (lhs.assign rhs).ra = rhs.ra ∧ (lhs.assign rhs).getCenter = .ok c := by
  refine ⟨rfl, ?_⟩
  unfold State.assign State.getCenter
  simp only [h1, h2]

/-- The normalisation does not enter the value, but the derivative with respect to it is not
zero. -/
theorem C63_norm_violates (angle : ℝ × ℝ → ℝ × ℝ → ℝ) (s s' : State) (dir : ℝ × ℝ) (v : ℝ)
    (h : s.value angle dir = .ok (s', v)) (hv : v ≠ 0) (h0 : s.norm ≠ 0) :
    (∀ n, ∃ s'', ({ s with norm := n } : State).value angle dir = .ok (s'', v)) ∧
    ∃ w, s.deriv angle dir "Normalization" = .ok w ∧ w ≠ 0 := by
  constructor
  · intro n
    unfold State.value at h ⊢
    simp only [] at h ⊢
    rw [Res.bind_eq_ok] at h
    obtain ⟨x, hx, h⟩ := h
    simp only [Res.ok.injEq, Prod.mk.injEq] at h
    rw [hx, Res.bind_ok, h.2]
    exact ⟨_, rfl⟩
  · refine ⟨v / s.norm, ?_, div_ne_zero hv h0⟩
    unfold State.deriv
    rw [if_pos rfl, h, Res.bind_ok, if_neg h0]

/-- Where a disk or Gaussian is and how large: as the parameters say, after any settings of
parameters. -/
theorem C63_extended (ra dec width : ℝ) (sets : List (Par × ℝ)) :
    let s := sets.foldl (fun s x => s.setParam x.1 x.2) (Extended.new ra dec width)
    s.dir = (s.ra, s.dec) ∧ s.size = s.width := by
  have key : ∀ (l : List (Par × ℝ)) (s : Extended), (s.dir = (s.ra, s.dec) ∧ s.size = s.width) →
      (l.foldl (fun s x => s.setParam x.1 x.2) s).dir =
        ((l.foldl (fun s x => s.setParam x.1 x.2) s).ra, (l.foldl (fun s x => s.setParam x.1 x.2) s).dec) ∧
      (l.foldl (fun s x => s.setParam x.1 x.2) s).size = (l.foldl (fun s x => s.setParam x.1 x.2) s).width := by
    intro l
    induction l with
    | nil => intro s h; exact h
    | cons x l ih => intro s _; exact ih _ ⟨rfl, rfl⟩
  exact key sets _ ⟨rfl, rfl⟩

/-- Each setting sets what it says and nothing else. -/
theorem C63_set (s : Extended) (p : Par) (v : ℝ) :
    ((s.setParam p v).ra, (s.setParam p v).dec, (s.setParam p v).width) =
      match p with
      | .ra => (v, s.dec, s.width)
      | .dec => (s.ra, v, s.width)
      | .width => (s.ra, s.dec, v) := by
  cases p <;> rfl

/-- A source that has been moved goes back to the position of its parameters when its size is
set, even to the value it has. -/
theorem C63_move_violates (s : Extended) (p : ℝ × ℝ) (w : ℝ) :
    (s.move p).dir = p ∧ ((s.move p).ra, (s.move p).dec) = (s.ra, s.dec) ∧
    ((s.move p).setParam .width w).dir = (s.ra, s.dec) := ⟨rfl, rfl, rfl⟩

/-- Half way down a profile of three points, and a state that meets the hypotheses above. -/
example : Increasing [((0 : ℝ), (4 : ℝ)), (1, 2), (3, 0)] ∧
    valueAtOffset [(0, 4), (1, 2), (3, 0)] 2 = .ok 1 ∧
    ∃ v, valueAtOffset [(0, 4), (1, 2), (3, 0)] 5 = .ok v ∧ v < 0 := by
  have h : Increasing [((0 : ℝ), (4 : ℝ)), (1, 2), (3, 0)] := by
    unfold Increasing; norm_num
  refine ⟨h, ?_, ?_⟩
  · rw [C63_profile _ h 2 1 (by simp) (Or.inl (by norm_num)) (Or.inl (by norm_num))]
    norm_num [line]
  · exact C63_beyond_violates _ h (by simp) (by norm_num) (by norm_num) 5 (by norm_num)

/-- A profile evaluated at its centre. -/
example : ∃ s' v, (State.mk 2 10 20 none [(0, 4), (1, 2)]).value (fun a b => |a.1 - b.1|) (10, 20) = .ok (s', v) ∧ v ≠ 0 := by
  have h : Increasing [((0 : ℝ), (4 : ℝ)), (1, 2)] := by
    unfold Increasing; norm_num
  have := C63_nodes _ h (by simp) 0 (by simp)
  simp only [List.getElem_cons_zero] at this
  unfold State.value
  simp only [sub_self, abs_zero]
  rw [this]
  exact ⟨_, _, rfl, by norm_num⟩

end Verif.Profile
