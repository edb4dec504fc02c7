import Verif.AddMap.Spec
import Verif.Sparse.Lemmas
import Mathlib.Tactic.Ring
set_option linter.unusedSectionVars false
set_option linter.unusedVariables false
namespace Verif.AddMap
open Verif.Sparse Verif.Vec

variable {K : Type} [Field K] [DecidableEq K]

theorem loop_congr {σ : Type} {f g : Nat → σ → Res σ} {lo n : Nat} (h : ∀ i s, lo ≤ i → i < lo + n → f i s = g i s) (s : σ) :
    loop f lo n s = loop g lo n s := by
  induction n generalizing lo s with
  | zero => rfl
  | succ n ih =>
    simp only [loop]
    rw [h lo s (le_refl _) (by omega)]
    cases g lo s with
    | ok a => exact ih (fun i s h1 h2 => h i s (by omega) (by omega)) a
    | throws => rfl
    | ub => rfl

/-- Plus or minus one. -/
def sgn (sub : Bool) : K := if sub then -1 else 1

theorem put_lt (sub : Bool) {v : List K} {i : Nat} (x : K) (h : i < v.length) :
    put sub v i x = .ok (v.set i (val v i + sgn sub * x)) := by
  unfold put
  rw [vget_val h, Res.bind_ok, vset_lt _ _ _ h]
  cases sub <;> simp [sgn, sub_eq_add_neg]

theorem put_ge (sub : Bool) {v : List K} {i : Nat} (x : K) (h : v.length ≤ i) : put sub v i x = .ub := by
  unfold put
  rw [vget_ge _ _ h, Res.bind_ub]

theorem factor_ok {spec : List K} {inc : Bool} {k : Nat} (h : inc = true → k < spec.length) :
    factor spec inc k = .ok (factors inc spec k) := by
  cases inc
  · rfl
  · simp [factor, factors, vget_val (h rfl)]

theorem denseLoop_ok (sub : Bool) {s : SMap K} (inc : Bool) {a n : Nat} {v : List K}
    (hM : (a + n) * s.npix ≤ s.model.length) (hs : inc = true → a + n ≤ s.specVals.length)
    (hv : v.length = n * s.npix) :
    ∃ out, denseLoop sub s inc a n v = .ok out ∧
      Added (sgn sub) s.npix a s.model (factors inc s.specVals) v out := by
  obtain ⟨out, h1, h2, h3, -⟩ := loop2_add (v := v) (n := s.npix) (m := n)
    (body := fun k p v => do
      let m ← vget s.model ((a + k) * s.npix + p)
      put sub v (k * s.npix + p) (m * factors inc s.specVals (a + k)))
    (fun k p => sgn sub * (val s.model ((a + k) * s.npix + p) * factors inc s.specVals (a + k))) (by omega)
    (by
      intro k p w hk hp hl
      have hi : (a + k) * s.npix + p < s.model.length :=
        lt_of_lt_of_le (idx_lt hp (by omega)) hM
      rw [vget_val hi, Res.bind_ok, put_lt _ _ (by rw [hl, hv]; exact idx_lt hp hk)])
  refine ⟨out, ?_, h2, fun k p hk hp => h3 k p ?_ hp⟩
  · rw [← h1]
    refine loop_congr (fun k w _ hk => ?_) v
    rw [factor_ok (fun h => by have := hs h; omega), Res.bind_ok]
  · by_contra hc
    have := Nat.mul_le_mul_right s.npix (not_lt.mp hc)
    omega

/-- The loop over stored elements `fillLoop 0 k w`. -/
theorem sparseLoop_ok (sub : Bool) {f : Nat → Res K} {F : Nat → K} {npix off : Nat} (w : List K) :
    ∀ (k : Nat) (v : List K), off ≤ k → k - off + w.length ≤ v.length →
    (∀ i, k ≤ i → i < k + w.length → val w (i - k) ≠ 0 → f (i / npix) = .ok (F (i / npix))) →
    ∃ out, sparseLoop sub f npix off (fillLoop 0 k w) v = .ok out ∧ out.length = v.length ∧
      (∀ i, i < k - off → val out i = val v i) ∧
      (∀ i, i < w.length → val out (k - off + i) =
        val v (k - off + i) + sgn sub * (val w i * F ((k + i) / npix))) ∧
      (∀ i, k - off + w.length ≤ i → val out i = val v i) := by
  induction w with
  | nil =>
    intro k v hk hl hf
    exact ⟨v, rfl, rfl, fun _ _ => rfl, fun i hi => absurd hi (Nat.not_lt_zero _), fun _ _ => rfl⟩
  | cons x w ih =>
    intro k v hk hl hf
    rw [List.length_cons] at hl
    have hf' : ∀ i, k + 1 ≤ i → i < k + 1 + w.length → val w (i - (k + 1)) ≠ 0 → f (i / npix) = .ok (F (i / npix)) := by
      intro i h1 h2 h3
      refine hf i (by omega) (by rw [List.length_cons]; omega) ?_
      rw [show i - k = (i - (k + 1)) + 1 by omega, val_cons_succ]
      exact h3
    have e1 : k + 1 - off = k - off + 1 := by omega
    by_cases hx : x = 0
    · obtain ⟨out, g1, g2, g3, g4, g5⟩ := ih (k + 1) v (by omega) (by omega) hf'
      rw [e1] at g3 g4 g5
      refine ⟨out, ?_, g2, fun i hi => g3 i (by omega), ?_, fun i hi => g5 i (by rw [List.length_cons] at hi; omega)⟩
      · rw [fillLoop, if_neg (by simpa using hx)]; exact g1
      · intro i hi
        cases i with
        | zero => rw [Nat.add_zero, g3 _ (by omega), val_cons_zero, hx, zero_mul, mul_zero, add_zero]
        | succ i =>
          rw [List.length_cons] at hi
          have := g4 i (by omega)
          rw [show k - off + 1 + i = k - off + (i + 1) by omega, show k + 1 + i = k + (i + 1) by omega] at this
          rw [this, val_cons_succ]
    · have hlt : k - off < v.length := by omega
      obtain ⟨out, g1, g2, g3, g4, g5⟩ := ih (k + 1) (v.set (k - off) (val v (k - off) + sgn sub * (x * F (k / npix))))
        (by omega) (by rw [List.length_set]; omega) hf'
      rw [e1] at g3 g4 g5
      rw [List.length_set] at g2
      refine ⟨out, ?_, g2, ?_, ?_, ?_⟩
      · rw [fillLoop, if_pos hx]
        simp only [sparseLoop]
        rw [hf k (le_refl _) (by rw [List.length_cons]; omega) (by rw [Nat.sub_self, val_cons_zero]; exact hx), Res.bind_ok,
          if_neg (by omega), put_lt _ _ hlt, Res.bind_ok]
        exact g1
      · intro i hi
        rw [g3 i (by omega), val_set hlt, if_neg (by omega)]
      · intro i hi
        cases i with
        | zero => rw [Nat.add_zero, g3 _ (by omega), val_set hlt, if_pos rfl, val_cons_zero, Nat.add_zero]
        | succ i =>
          rw [List.length_cons] at hi
          have := g4 i (by omega)
          rw [show k - off + 1 + i = k - off + (i + 1) by omega, show k + 1 + i = k + (i + 1) by omega,
            val_set hlt, if_neg (by omega)] at this
          rw [this, val_cons_succ]
      · intro i hi
        rw [List.length_cons] at hi
        rw [g5 i (by omega), val_set hlt, if_neg (by omega)]

theorem sparseLoop_append (sub : Bool) (f : Nat → Res K) (npix off : Nat) (l1 l2 : List (Nat × K)) (v : List K) :
    sparseLoop sub f npix off (l1 ++ l2) v = (sparseLoop sub f npix off l1 v >>= fun w => sparseLoop sub f npix off l2 w) := by
  induction l1 generalizing v with
  | nil => rfl
  | cons e l1 ih =>
    simp only [List.cons_append, sparseLoop]
    cases f (e.1 / npix) with
    | ok x =>
      simp only [Res.bind_ok]
      split
      · rfl
      · cases put sub v (e.1 - off) (e.2 * x) with
        | ok w => simp only [Res.bind_ok]; exact ih w
        | throws => rfl
        | ub => rfl
    | throws => rfl
    | ub => rfl

theorem size_ok {s : SMap K} {v : List K} {kmin kmax : Int} {a b : Nat} (hp : Planes s.nE kmin kmax a b)
    (hv : v.length = (b - a) * s.npix) :
    s.wrongSize v kmin kmax = false ∧ s.kmax kmax = b ∧ kmin.toNat = a ∧ ¬ kmin < 0 ∧ ((b : Int) - kmin).toNat = b - a := by
  obtain ⟨h1, h2, h3, h4⟩ := hp
  have hb : s.kmax kmax = b := by
    unfold SMap.kmax
    rcases h2 with h | ⟨h, h'⟩
    · rw [if_neg (by omega), h]
    · rw [if_pos h, h']
  refine ⟨?_, hb, by omega, by omega, by omega⟩
  unfold SMap.wrongSize
  rw [hb, h1, hv]
  simp only [ne_eq, decide_not, Bool.not_eq_eq_eq_not, Bool.not_false, decide_eq_true_eq]
  push_cast [Nat.cast_sub h3]
  rfl

/-- Stored elements in the range the loops run over. -/
theorem range_eq {s : SMap K} {M : List K} (h : s.Holds M) (hs : s.isSparse = true) {a b : Nat} (hab : a ≤ b) :
    s.sparse.rangeLU (a * s.npix) (b * s.npix) =
      fillLoop 0 (a * s.npix) ((M.drop (a * s.npix)).take (b * s.npix + 1 - a * s.npix)) := by
  have hr := (h.sparse hs).1.rep
  have := rangeLU_eq hr.2 (a * s.npix) (b * s.npix) (Nat.mul_le_mul_right _ hab)
  rwa [(h.sparse hs).2] at this

theorem val_drop_take' (M : List K) {a n i : Nat} (hi : i < n) : val ((M.drop a).take n) i = val M (a + i) := by
  simp [val, List.getElem?_drop, hi]

/-- The slice splits into the planes asked for and, if there is one, the next pixel. -/
theorem slice {M : List K} {npix nE a b : Nat} (hM : M.length = nE * npix) (hab : a ≤ b) (hb : b ≤ nE) :
    (b = nE ∨ npix = 0) ∧ (M.drop (a * npix)).take (b * npix + 1 - a * npix) = (M.drop (a * npix)).take ((b - a) * npix) ∨
    (b < nE ∧ 0 < npix) ∧ (M.drop (a * npix)).take (b * npix + 1 - a * npix) =
      (M.drop (a * npix)).take ((b - a) * npix) ++ [val M (b * npix)] := by
  have h1 : a * npix ≤ b * npix := Nat.mul_le_mul_right _ hab
  have h2 : (b - a) * npix = b * npix - a * npix := Nat.sub_mul _ _ _
  by_cases hc : b < nE ∧ 0 < npix
  · right
    refine ⟨hc, ?_⟩
    have h3 : b * npix < M.length := by
      rw [hM]
      have := idx_lt (p := 0) hc.2 hc.1
      omega
    rw [show b * npix + 1 - a * npix = (b - a) * npix + 1 by omega, List.take_add_one, h2]
    congr 1
    rw [List.getElem?_drop, show a * npix + (b * npix - a * npix) = b * npix by omega, getElem?_val h3]
    rfl
  · left
    refine ⟨by omega, ?_⟩
    have h3 : M.length = b * npix := by
      rcases Nat.eq_or_lt_of_le hb with h | h
      · rw [hM, h]
      · have : npix = 0 := by omega
        rw [hM, this, Nat.mul_zero, Nat.mul_zero]
    rw [List.take_of_length_le (by rw [List.length_drop]; omega), List.take_of_length_le (by rw [List.length_drop]; omega)]

theorem slice_length {M : List K} {npix nE a b : Nat} (hM : M.length = nE * npix) (hab : a ≤ b) (hb : b ≤ nE) :
    ((M.drop (a * npix)).take ((b - a) * npix)).length = (b - a) * npix := by
  have h1 : a * npix ≤ b * npix := Nat.mul_le_mul_right _ hab
  have h4 : b * npix ≤ nE * npix := Nat.mul_le_mul_right _ hb
  have h2 : (b - a) * npix = b * npix - a * npix := Nat.sub_mul _ _ _
  rw [List.length_take, List.length_drop, hM]
  omega

/-- The loop over the planes asked for. -/
theorem sparse_planes (sub : Bool) {M : List K} {npix nE a b : Nat} (hM : M.length = nE * npix) (hab : a ≤ b) (hb : b ≤ nE)
    {f : Nat → Res K} {F : Nat → K} (hf : ∀ k, k < b → f k = .ok (F k)) {v : List K} (hv : v.length = (b - a) * npix) :
    ∃ out, sparseLoop sub f npix (a * npix) (fillLoop 0 (a * npix) ((M.drop (a * npix)).take ((b - a) * npix))) v = .ok out ∧
      Added (sgn sub) npix a M F v out := by
  have hl := slice_length hM hab hb
  have h2 : (b - a) * npix = b * npix - a * npix := Nat.sub_mul _ _ _
  have h1 : a * npix ≤ b * npix := Nat.mul_le_mul_right _ hab
  obtain ⟨out, g1, g2, g3, g4, g5⟩ := sparseLoop_ok sub (f := f) (F := F) (npix := npix) (off := a * npix)
    ((M.drop (a * npix)).take ((b - a) * npix)) (a * npix) v (le_refl _) (by rw [hl, hv]; omega)
    (by
      intro i h3 h4 _
      rw [hl] at h4
      exact hf _ (Nat.div_lt_of_lt_mul (by rw [Nat.mul_comm]; omega)))
  refine ⟨out, g1, g2, fun k p hk hp => ?_⟩
  have := g4 (k * npix + p) (by rw [hl, ← hv]; exact hk)
  rw [Nat.sub_self, Nat.zero_add, val_drop_take' _ (by rw [← hv]; exact hk),
    show a * npix + (k * npix + p) = (a + k) * npix + p by rw [Nat.add_mul]; omega] at this
  rw [this, show ((a + k) * npix + p) / npix = a + k by
    rw [Nat.add_comm, Nat.add_mul_div_right _ _ (by omega), Nat.div_eq_of_lt hp, Nat.zero_add]]

end Verif.AddMap
