import Verif.Basic
import Mathlib.Algebra.BigOperators.Group.Finset.Basic
import Mathlib.Algebra.BigOperators.Group.List.Basic
/-
Vectors seen as functions of the index, for proofs about index loops.
-/
open scoped BigOperators
set_option linter.unusedVariables false

namespace Verif.Vec

variable {α : Type*}

/-- Element of a vector; only meaningful inside its size (0 outside). -/
def val [Zero α] (l : List α) (k : Nat) : α := l[k]?.getD 0

theorem val_lt [Zero α] {l : List α} {k : Nat} (h : k < l.length) : val l k = l[k] := by
  simp [val, List.getElem?_eq_getElem h]

theorem val_ge [Zero α] {l : List α} {k : Nat} (h : l.length ≤ k) : val l k = 0 := by
  simp [val, List.getElem?_eq_none h]

theorem getElem?_val [Zero α] {l : List α} {k : Nat} (h : k < l.length) :
    l[k]? = some (val l k) := by
  rw [val_lt h, List.getElem?_eq_getElem h]

theorem vget_val [Zero α] {l : List α} {k : Nat} (h : k < l.length) :
    vget l k = .ok (val l k) := by
  rw [vget_lt l k h, val_lt h]

@[simp] theorem val_nil [Zero α] (k : Nat) : val ([] : List α) k = 0 := rfl
@[simp] theorem val_cons_zero [Zero α] (a : α) (l : List α) : val (a :: l) 0 = a := rfl
@[simp] theorem val_cons_succ [Zero α] (a : α) (l : List α) (k : Nat) :
    val (a :: l) (k + 1) = val l k := by
  simp [val]

theorem val_set [Zero α] {l : List α} {i k : Nat} {a : α} (h : i < l.length) :
    val (l.set i a) k = if k = i then a else val l k := by
  unfold val
  by_cases hk : k = i
  · subst hk; simp [h]
  · rw [List.getElem?_set]; simp [Ne.symm hk, hk]

theorem ext_val [Zero α] {a b : List α} (hl : a.length = b.length)
    (h : ∀ k < a.length, val a k = val b k) : a = b := by
  apply List.ext_getElem hl
  intro k h1 h2
  have := h k h1
  rwa [val_lt h1, val_lt h2] at this

theorem sum_val [AddCommMonoid α] (l : List α) :
    l.sum = ∑ k ∈ Finset.range l.length, val l k := by
  induction l with
  | nil => simp
  | cons a l ih => simp [Finset.sum_range_succ', ih, add_comm]

theorem foldl_sum [AddCommMonoid α] (l : List α) (a : α) : l.foldl (· + ·) a = a + l.sum := by
  induction l generalizing a with
  | nil => simp
  | cons x l ih => simp [ih, add_assoc]

@[simp] theorem val_replicate_zero [Zero α] (n k : Nat) : val (List.replicate n (0 : α)) k = 0 := by
  by_cases h : k < n
  · rw [val_lt (by simpa using h)]; simp
  · exact val_ge (by simpa using h)

theorem val_mem [Zero α] {l : List α} {k : Nat} (h : k < l.length) : val l k ∈ l := by
  rw [val_lt h]; exact List.getElem_mem h

theorem mem_val [Zero α] {l : List α} {x : α} (h : x ∈ l) : ∃ k < l.length, val l k = x := by
  obtain ⟨k, hk, rfl⟩ := List.mem_iff_getElem.1 h
  exact ⟨k, hk, val_lt hk⟩

theorem val_map_range [Zero α] (f : Nat → α) {n k : Nat} (h : k < n) :
    val ((List.range n).map f) k = f k := by
  rw [val_lt (by simpa using h)]; simp

theorem pairwise_val [Zero α] {r : α → α → Prop} {l : List α} :
    l.Pairwise r ↔ ∀ i j, i < j → j < l.length → r (val l i) (val l j) := by
  rw [List.pairwise_iff_getElem]
  constructor
  · intro h i j hij hj
    rw [val_lt (by omega), val_lt hj]; exact h i j (by omega) hj hij
  · intro h i j hi hj hij
    have := h i j hij hj
    rwa [val_lt hi, val_lt hj] at this

/-- Overwriting loop: `for i in [lo, lo+n): v[pos i] = f i`, positions distinct. -/
theorem loop_add [AddCommMonoid α] {v : List α} {lo n : Nat} {body : Nat → List α → Res (List α)}
    (f : Nat → α)
    (hn : lo + n ≤ v.length)
    (hbody : ∀ i w, lo ≤ i → i < lo + n → w.length = v.length →
      val w i = val v i → body i w = .ok (w.set i (val w i + f i))) :
    ∃ w, loop body lo n v = .ok w ∧ w.length = v.length ∧
      ∀ k, val w k = if lo ≤ k ∧ k < lo + n then val v k + f k else val v k := by
  obtain ⟨w, h1, h2, h3⟩ := loop_inv (body := body) (lo := lo) (n := n) (s := v)
    (fun i w => w.length = v.length ∧
      ∀ k, val w k = if lo ≤ k ∧ k < i then val v k + f k else val v k)
    ⟨rfl, fun k => by rw [if_neg (by omega)]⟩
    (by
      rintro i w hi hi' ⟨hl, hv⟩
      have hvi : val w i = val v i := by rw [hv, if_neg (by omega)]
      refine ⟨_, hbody i w hi hi' hl hvi, by simp [hl], ?_⟩
      intro k
      rw [val_set (by omega)]
      by_cases hk : k = i
      · subst hk; rw [if_pos rfl, hvi, if_pos (by omega)]
      · rw [if_neg hk, hv k]
        by_cases h2 : lo ≤ k ∧ k < i
        · rw [if_pos h2, if_pos (by omega)]
        · rw [if_neg h2, if_neg (by omega)])
  exact ⟨w, h1, h2, h3⟩

/-- Accumulating loop. -/
theorem loop_sum [AddCommMonoid α] {lo n : Nat} {body : Nat → α → Res α} (f : Nat → α) (a : α)
    (hbody : ∀ i s, lo ≤ i → i < lo + n → body i s = .ok (s + f i)) :
    loop body lo n a = .ok (a + ∑ i ∈ Finset.range n, f (lo + i)) := by
  induction n generalizing lo a with
  | zero => simp [loop]
  | succ n ih =>
    rw [loop, hbody lo a (Nat.le_refl _) (by omega), Res.bind_ok,
      ih (lo := lo + 1) _ (fun i s h1 h2 => hbody i s (by omega) (by omega)),
      Finset.sum_range_succ']
    congr 1
    rw [add_assoc, add_comm (f lo)]
    simp [Nat.add_assoc, Nat.add_comm 1]

theorem idx_lt {n k p m : Nat} (hp : p < n) (hk : k < m) : k * n + p < m * n := by
  calc k * n + p < k * n + n := by omega
    _ = (k + 1) * n := by rw [Nat.add_mul, Nat.one_mul]
    _ ≤ m * n := Nat.mul_le_mul_right _ hk

theorem idx_inj {n k p k' p' : Nat} (hp : p < n) (hp' : p' < n)
    (h : k * n + p = k' * n + p') : k = k' ∧ p = p' := by
  have hn : 0 < n := by omega
  have e1 : (k * n + p) / n = k := by
    rw [Nat.add_comm, Nat.add_mul_div_right _ _ hn, Nat.div_eq_of_lt hp, Nat.zero_add]
  have e2 : (k' * n + p') / n = k' := by
    rw [Nat.add_comm, Nat.add_mul_div_right _ _ hn, Nat.div_eq_of_lt hp', Nat.zero_add]
  have : k = k' := by rw [← e1, h, e2]
  subst this
  exact ⟨rfl, by omega⟩

theorem set_val_self [AddCommMonoid α] {l : List α} {i : Nat} (h : i < l.length) :
    l.set i (val l i + 0) = l := by
  rw [add_zero, val_lt h]; exact List.set_getElem_self h

/-- Two nested loops adding `F k p` at index `k * n + p`. -/
theorem loop2_add [AddCommMonoid α] {v : List α} {n m : Nat}
    {body : Nat → Nat → List α → Res (List α)} (F : Nat → Nat → α) (hv : m * n ≤ v.length)
    (hbody : ∀ k p w, k < m → p < n → w.length = v.length →
      body k p w = .ok (w.set (k * n + p) (val w (k * n + p) + F k p))) :
    ∃ w, loop (fun k w => loop (body k) 0 n w) 0 m v = .ok w ∧ w.length = v.length ∧
      (∀ k p, k < m → p < n → val w (k * n + p) = val v (k * n + p) + F k p) ∧
      ∀ j, m * n ≤ j → val w j = val v j := by
  obtain ⟨w, h1, h2, h3, h4⟩ := loop_inv (body := fun k w => loop (body k) 0 n w)
    (lo := 0) (n := m) (s := v)
    (fun k w => w.length = v.length ∧
      (∀ k' p, k' < m → p < n →
        val w (k' * n + p) = if k' < k then val v (k' * n + p) + F k' p else val v (k' * n + p)) ∧
      ∀ j, m * n ≤ j → val w j = val v j)
    ⟨rfl, fun k' p _ _ => by rw [if_neg (Nat.not_lt_zero _)], fun _ _ => rfl⟩
    (by
      rintro k w _ hk ⟨hl, hw, hw'⟩
      rw [Nat.zero_add] at hk
      obtain ⟨w', g1, g2, g3, g4⟩ := loop_inv (body := body k) (lo := 0) (n := n) (s := w)
        (fun i w' => w'.length = v.length ∧
          (∀ k' p, k' < m → p < n → val w' (k' * n + p) =
            if k' < k ∨ (k' = k ∧ p < i) then val v (k' * n + p) + F k' p
            else val v (k' * n + p)) ∧
          ∀ j, m * n ≤ j → val w' j = val v j)
        ⟨hl, fun k' p h h' => by
          rw [hw k' p h h']
          by_cases hc : k' < k
          · rw [if_pos hc, if_pos (Or.inl hc)]
          · rw [if_neg hc, if_neg (by omega)], hw'⟩
        (by
          rintro i w' _ hi ⟨i1, i2, i3⟩
          rw [Nat.zero_add] at hi
          have hidx : k * n + i < w'.length := by rw [i1]; exact lt_of_lt_of_le (idx_lt hi hk) hv
          refine ⟨_, hbody k i w' hk hi i1, by simp [i1], ?_, ?_⟩
          · intro k' p h h'
            rw [val_set hidx]
            by_cases he : k' * n + p = k * n + i
            · obtain ⟨rfl, rfl⟩ := idx_inj h' hi he
              rw [if_pos rfl, if_pos (by omega), i2 _ _ h h', if_neg (by omega)]
            · rw [if_neg he, i2 k' p h h']
              have : ¬ (k' = k ∧ p = i) := by rintro ⟨rfl, rfl⟩; exact he rfl
              by_cases hc : k' < k ∨ (k' = k ∧ p < i)
              · rw [if_pos hc, if_pos (by omega)]
              · rw [if_neg hc, if_neg (by omega)]
          · intro j hj
            rw [val_set hidx, if_neg, i3 j hj]
            have := idx_lt hi hk
            omega)
      refine ⟨w', g1, g2, ?_, g4⟩
      intro k' p h h'
      rw [g3 k' p h h', Nat.zero_add]
      by_cases hc : k' < k + 1
      · rw [if_pos hc, if_pos (by omega)]
      · rw [if_neg hc, if_neg (by omega)])
  refine ⟨w, h1, h2, ?_, h4⟩
  intro k p hk hp
  rw [h3 k p hk hp, if_pos (by omega)]

end Verif.Vec
