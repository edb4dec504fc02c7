import Verif.MatVec.Model
import Verif.MatVec.Spec
import Verif.Attrib.Lemmas
import Mathlib.Algebra.Order.BigOperators.Group.Finset
import Mathlib.Tactic.Linarith
import Mathlib.Tactic.Ring
import Mathlib.Tactic.FieldSimp
import Mathlib.Tactic.NormNum
/-
C131: matrices and vectors of fits.
-/
set_option linter.unusedSectionVars false
set_option linter.unusedSimpArgs false
set_option linter.unusedVariables false
namespace Verif.MatVec
open Vec Spec

/-! ### Conversions -/

theorem chunks (v : Nat → ℝ) (n : Nat) : ∀ k : Nat, ((List.range k).map (fun i => (List.range n).map (fun j => v (i * n + j)))).flatten =
    (List.range (k * n)).map v
  | 0 => by simp
  | k + 1 => by
    rw [List.range_succ, List.map_append, List.flatten_append, chunks v n k, Nat.succ_mul, List.range_add, List.map_append]
    simp

/-- A vector made into rows: it must have the right size; the rows one after another are the vector again. -/
theorem C131_reshape (v : List ℝ) (ni nj : Nat) :
    (v.length ≠ ni * nj → reshape v ni nj = .throws) ∧
    (v.length = ni * nj → ∃ r, reshape v ni nj = .ok r ∧ r.length = ni ∧ (∀ row ∈ r, row.length = nj) ∧ r.flatten = v) := by
  refine ⟨fun h => if_pos h, fun h => ⟨_, if_neg (not_not.2 h), by simp, ?_, ?_⟩⟩
  · intro row hr
    obtain ⟨i, _, rfl⟩ := List.mem_map.1 hr
    simp
  · rw [chunks (val v) nj ni]
    apply ext_val (by simp [h])
    intro k hk
    rw [List.length_map, List.length_range] at hk
    exact val_map_range (val v) hk

theorem symToStl_byRows (m : Sym) : ByRows (symToStl m) m.n m.get := by
  have key : ∀ (f : Nat → Nat → ℝ) (n k : Nat), ((List.range k).map (fun i => (List.range n).map (fun j => f i j))).flatten.length = k * n ∧
      ∀ i j, i < k → j < n → val ((List.range k).map (fun i => (List.range n).map (fun j => f i j))).flatten (i * n + j) = f i j := by
    intro f n k
    induction k with
    | zero => exact ⟨by simp, fun i j h => absurd h (by omega)⟩
    | succ k ih =>
      obtain ⟨h1, h2⟩ := ih
      rw [List.range_succ, List.map_append, List.flatten_append]
      constructor
      · rw [List.length_append, h1]; simp; ring
      · intro i j hi hj
        unfold val
        by_cases c : i < k
        · rw [List.getElem?_append_left (by rw [h1]; exact idx_lt hj c)]
          exact h2 i j c hj
        · have : i = k := by omega
          subst this
          rw [List.getElem?_append_right (by rw [h1]; omega), h1]
          simp [hj]
  exact key m.get m.n m.n

theorem rows_square (m : Nat) : rows (m * m) = m := by
  have h : Real.sqrt ((m * m : Nat) : ℝ) = m := by
    rw [Nat.cast_mul]; exact Real.sqrt_mul_self (Nat.cast_nonneg m)
  have hf : ⌊(m : ℝ) + 1 / 2⌋₊ = m := by
    rw [Nat.floor_eq_iff (by positivity)]
    constructor <;> linarith
  unfold rows
  rw [h, hf]
  simp

theorem rows_ge (k : Nat) : k ≤ rows k * rows k := by
  unfold rows
  simp only
  set r := ⌊Real.sqrt (k : ℝ) + 1 / 2⌋₊ with hr
  split
  · have h1 : Real.sqrt (k : ℝ) + 1 / 2 < r + 1 := Nat.lt_floor_add_one _
    have h2 : Real.sqrt (k : ℝ) ≤ r + 1 := by linarith
    have h3 : (k : ℝ) ≤ ((r : ℝ) + 1) * (r + 1) := by
      have := mul_self_le_mul_self (Real.sqrt_nonneg _) h2
      rwa [Real.mul_self_sqrt (Nat.cast_nonneg k)] at this
    exact_mod_cast h3
  · omega

theorem low_set (m : Sym) (i j : Nat) (v : ℝ) (a b : Nat) : (m.set i j v).low a b = if a = max i j ∧ b = min i j then v else m.low a b := rfl

/-- A vector of squared size made into a symmetric matrix: the elements below the diagonal count. -/
theorem C131_lower_violates (stl : List ℝ) (n : Nat) (h : stl.length = n * n) :
    ∃ m, stlToSym stl = .ok m ∧ m.n = n ∧ ∀ i j, j ≤ i → i < n → m.get i j = val stl (i * n + j) ∧ m.get j i = val stl (i * n + j) := by
  have hrow : ∀ i m, i < n → (m.n = n ∧ ∀ a b, b ≤ a → a < i → m.low a b = val stl (a * n + b)) →
      ∃ m', loop (fun j (m : Sym) => (do let v ← vget stl (i * n + j); .ok (m.set i j v) : Res Sym)) 0 n m = .ok m' ∧
        (m'.n = n ∧ ∀ a b, b ≤ a → a < i + 1 → m'.low a b = val stl (a * n + b)) := by
    intro i m hi hm
    obtain ⟨m', h1, h2⟩ := loop_inv (body := fun j (m : Sym) => (do let v ← vget stl (i * n + j); .ok (m.set i j v) : Res Sym))
      (P := fun j m => m.n = n ∧ (∀ a b, b ≤ a → a < i → m.low a b = val stl (a * n + b)) ∧
        ∀ b, b ≤ i → b < j → m.low i b = val stl (i * n + b)) (lo := 0) (n := n) (s := m) ⟨hm.1, hm.2, fun b _ hb => by omega⟩ (by
      intro j m' _ hj ⟨q1, q2, q3⟩
      have hlt : i * n + j < stl.length := by rw [h]; exact idx_lt (by omega) hi
      refine ⟨m'.set i j (val stl (i * n + j)), by rw [vget_val hlt]; rfl, q1, ?_, ?_⟩
      · intro a b hb ha
        rw [low_set, if_neg (by omega)]
        exact q2 a b hb ha
      · intro b hb hbj
        rw [low_set]
        by_cases c : b = j
        · subst c
          rw [if_pos (by omega)]
        · rw [if_neg (by omega)]
          exact q3 b hb (by omega))
    refine ⟨m', h1, h2.1, ?_⟩
    intro a b hb ha
    by_cases c : a = i
    · subst c
      exact h2.2.2 b hb (by omega)
    · exact h2.2.1 a b hb (by omega)
  have hr : rows stl.length = n := by rw [h, rows_square]
  unfold stlToSym
  simp only [hr]
  obtain ⟨m', h1, h2⟩ := loop_inv (body := fun i (m : Sym) => loop (fun j (m : Sym) => (do
      let v ← vget stl (i * n + j); .ok (m.set i j v) : Res Sym)) 0 n m)
    (P := fun i m => m.n = n ∧ ∀ a b, b ≤ a → a < i → m.low a b = val stl (a * n + b)) (lo := 0) (n := n) (s := ⟨n, fun _ _ => 0⟩)
    ⟨rfl, fun a b _ ha => by omega⟩ (fun i m _ hi hm => hrow i m (by omega) hm)
  refine ⟨m', h1, h2.1, ?_⟩
  intro i j hj hi
  unfold Sym.get
  rw [show max i j = i by omega, show min i j = j by omega, show max j i = i by omega, show min j i = j by omega]
  exact ⟨h2.2 i j hj (by omega), h2.2 i j hj (by omega)⟩

/-- A symmetric matrix made into a vector, and back. -/
theorem C131_roundtrip (m : Sym) : ∃ m', stlToSym (symToStl m) = .ok m' ∧ m'.n = m.n ∧ ∀ i j, i < m.n → j < m.n → m'.get i j = m.get i j := by
  obtain ⟨h1, h2⟩ := symToStl_byRows m
  obtain ⟨m', h3, h4, h5⟩ := C131_lower_violates _ m.n h1
  refine ⟨m', h3, h4, ?_⟩
  intro i j hi hj
  by_cases c : j ≤ i
  · rw [(h5 i j c hi).1, h2 i j hi hj]
  · have c' : i ≤ j := by omega
    rw [(h5 j i c' hj).2, h2 j i hj hi]
    unfold Sym.get
    rw [max_comm, min_comm]

/-- A vector whose size is not a square is not refused: elements beyond its end are read. -/
theorem C131_square_violates (stl : List ℝ) (h : ∀ n, stl.length ≠ n * n) : stlToSym stl = .ub := by
  set n := rows stl.length with hn
  have hge : stl.length < n * n := lt_of_le_of_ne (rows_ge _) (h n)
  have hn0 : 0 < n := Nat.pos_of_ne_zero (fun c => by rw [c] at hge; omega)
  have hbody : ∀ i, ∀ (j : Nat) (m : Sym), (vget stl (i * n + j) >>= fun v => (.ok (m.set i j v) : Res Sym)) = .ub ∨
      ∃ m', (vget stl (i * n + j) >>= fun v => (.ok (m.set i j v) : Res Sym)) = .ok m' := by
    intro i j m
    by_cases c : i * n + j < stl.length
    · exact Or.inr ⟨_, by rw [vget_lt _ _ c]; rfl⟩
    · exact Or.inl (by rw [vget_ge _ _ (by omega)]; rfl)
  have hlast : ∀ m : Sym, loop (fun j (m : Sym) => (do let v ← vget stl ((0 + (n - 1)) * n + j); .ok (m.set (0 + (n - 1)) j v) : Res Sym)) 0 n m = .ub := by
    intro m
    apply Attrib.loop_fail (k := n - 1) (by omega)
    · intro j m _ _; exact hbody _ j m
    · intro m
      have : stl.length ≤ (0 + (n - 1)) * n + (0 + (n - 1)) := by
        obtain ⟨q, hq⟩ : ∃ q, n = q + 1 := ⟨n - 1, by omega⟩
        rw [hq] at hge ⊢
        simp only [Nat.add_sub_cancel, Nat.zero_add]
        nlinarith
      rw [vget_ge _ _ this]; rfl
  unfold stlToSym
  simp only [← hn]
  apply Attrib.loop_fail (k := n - 1) (by omega)
  · intro i m _ _
    by_cases c : ∃ j, j < n ∧ stl.length ≤ i * n + j
    · obtain ⟨j, hj, hc⟩ := c
      left
      apply Attrib.loop_fail (k := j) hj
      · intro j m _ _; exact hbody _ j m
      · intro m
        rw [Nat.zero_add, vget_ge _ _ hc]; rfl
    · right
      obtain ⟨m', h1, _⟩ := loop_inv (body := fun j (m : Sym) => (do let v ← vget stl (i * n + j); .ok (m.set i j v) : Res Sym))
        (P := fun _ _ => True) (lo := 0) (n := n) (s := m) trivial (by
        intro j m _ hj _
        have : i * n + j < stl.length := by
          by_contra hc; exact c ⟨j, by omega, by omega⟩
        exact ⟨_, by rw [vget_lt _ _ this]; rfl, trivial⟩)
      exact ⟨m', h1⟩
  · exact hlast

/-! ### Elementwise operations -/

/-- Products and differences of vectors: refused unless all sizes are the same. -/
theorem C131_elementwise (a b out : List ℝ) :
    (a.length = b.length ∧ a.length = out.length → ∃ p d, vectorMultiply a b out = .ok p ∧ vectorSubtract a b out = .ok d ∧
      p.length = a.length ∧ d.length = a.length ∧ ∀ k, k < a.length → val p k = val a k * val b k ∧ val d k = val a k - val b k) ∧
    (¬ (a.length = b.length ∧ a.length = out.length) → vectorMultiply a b out = .throws ∧ vectorSubtract a b out = .throws) := by
  constructor
  · rintro ⟨h1, h2⟩
    have hc : ¬ (a.length ≠ b.length ∨ a.length ≠ out.length) := by rintro (h | h); exacts [h h1, h h2]
    refine ⟨_, _, if_neg hc, if_neg hc, by simp [h1], by simp [h1], ?_⟩
    intro k hk
    have hk2 : k < b.length := h1 ▸ hk
    unfold val
    rw [List.getElem?_zipWith, List.getElem?_zipWith, List.getElem?_eq_getElem hk, List.getElem?_eq_getElem hk2]
    exact ⟨rfl, rfl⟩
  · intro h
    have hc : a.length ≠ b.length ∨ a.length ≠ out.length := by
      by_contra c
      rw [not_or, not_not, not_not] at c
      exact h c
    exact ⟨if_pos hc, if_pos hc⟩

/-- A symmetric error lies between the two errors, and is the upper one if the lower one is not known. -/
theorem C131_error (pos neg : ℝ) : (neg < 0 → symmetricError pos neg = pos) ∧
    (0 ≤ neg → min pos neg ≤ symmetricError pos neg ∧ symmetricError pos neg ≤ max pos neg ∧ symmetricError pos neg = symmetricError neg pos ∨ pos < 0) := by
  refine ⟨fun h => if_pos h, fun h => ?_⟩
  by_cases hp : pos < 0
  · exact Or.inr hp
  · left
    unfold symmetricError
    rw [if_neg (not_lt.2 h), if_neg hp]
    refine ⟨?_, ?_, by ring⟩
    · have h1 := min_le_left pos neg
      have h2 := min_le_right pos neg
      linarith
    · have h1 := le_max_left pos neg
      have h2 := le_max_right pos neg
      linarith

theorem addAll_ok : ∀ (ts : List (List ℝ)) (total : List ℝ), (∀ t ∈ ts, t.length = total.length) → ∃ r, addAll ts total = .ok r ∧
    r.length = total.length ∧ ∀ k, k < total.length → val r k = val total k + (ts.map (fun t => val t k)).sum
  | [], total, _ => ⟨total, rfl, rfl, fun k _ => by simp⟩
  | t :: ts, total, h => by
    have ht := h t List.mem_cons_self
    have hl : (List.zipWith (fun x y => x + y) total t).length = total.length := by simp [ht]
    obtain ⟨r, h1, h2, h3⟩ := addAll_ok ts (List.zipWith (fun x y => x + y) total t)
      (fun t' h' => by rw [hl]; exact h t' (List.mem_cons_of_mem _ h'))
    refine ⟨r, by rw [addAll, if_neg (by omega)]; exact h1, h2.trans hl, ?_⟩
    intro k hk
    rw [h3 k (by rw [hl]; exact hk), List.map_cons, List.sum_cons]
    have : val (List.zipWith (fun x y => x + y) total t) k = val total k + val t k := by
      unfold val
      rw [List.getElem?_zipWith, List.getElem?_eq_getElem hk, List.getElem?_eq_getElem (show k < t.length by omega)]
      rfl
    rw [this]; ring

/-- The model at the start of a scan: the fixed part and all templates. -/
theorem C131_init (templates : List (List ℝ)) (fixed total : List ℝ) (h1 : total.length = fixed.length)
    (h2 : ∀ t ∈ templates, t.length = fixed.length) : ∃ r, sumModelInit templates fixed total = .ok r ∧ r.length = fixed.length ∧
      ∀ k, k < fixed.length → val r k = val fixed k + (templates.map (fun t => val t k)).sum := by
  unfold sumModelInit
  rw [if_neg (by omega), List.drop_eq_nil_of_le (by omega), List.append_nil]
  exact addAll_ok templates fixed h2

theorem addAll_short : ∀ (ts : List (List ℝ)) (total : List ℝ), (∃ t ∈ ts, t.length < total.length) → addAll ts total = .ub
  | [], _, h => by obtain ⟨t, h, _⟩ := h; cases h
  | t :: ts, total, h => by
    rw [addAll]
    split
    · rfl
    · rename_i hc
      have hl : (List.zipWith (fun x y => x + y) total t).length = total.length := by rw [List.length_zipWith]; omega
      apply addAll_short
      obtain ⟨t', h1, h2⟩ := h
      rcases List.mem_cons.1 h1 with rfl | h1
      · exact absurd h2 hc
      · exact ⟨t', h1, by rw [hl]; exact h2⟩

/-- Templates shorter than the sum, or a sum shorter than the fixed part, are not refused: elements beyond the end are read or
written. -/
theorem C131_init_violates (templates : List (List ℝ)) (fixed total : List ℝ)
    (h : total.length < fixed.length ∨ ∃ t ∈ templates, t.length < total.length) : sumModelInit templates fixed total = .ub := by
  unfold sumModelInit
  split
  · rfl
  · rename_i hc
    rcases h with h | h
    · exact absurd h hc
    · apply addAll_short
      obtain ⟨t, h1, h2⟩ := h
      refine ⟨t, h1, ?_⟩
      rw [List.length_append, List.length_drop]
      omega

/-! ### Counts of a source -/

/-- The counts of a source from its map and its spectrum: in each bin and pixel those of the trapezoidal rule in the logarithm
of the energy. -/
theorem C131_counts (energies spec model out : List ℝ) (ne npix : Nat) (h1 : energies.length = ne + 1) (h2 : spec.length = ne + 1)
    (h3 : model.length = (ne + 1) * npix) (h4 : out.length = ne * npix) :
    ∃ r, modelCounts energies spec model out = .ok r ∧ r.length = ne * npix ∧ ∀ i j, i < ne → j < npix →
      val r (i * npix + j) = counts (val energies i) (val energies (i + 1)) (val spec i) (val spec (i + 1)) (val model (i * npix + j))
        (val model ((i + 1) * npix + j)) := by
  set c : Nat → Nat → ℝ := fun i j => counts (val energies i) (val energies (i + 1)) (val spec i) (val spec (i + 1))
    (val model (i * npix + j)) (val model ((i + 1) * npix + j)) with hc
  have hn : model.length / spec.length = npix := by rw [h2, h3]; exact Nat.mul_div_cancel_left _ (by omega)
  unfold modelCounts
  rw [if_neg (by omega)]
  simp only [hn]
  simp only [h2, Nat.add_sub_cancel]
  have hrow : ∀ i r, i < ne → (r.length = ne * npix ∧ ∀ a b, a < i → b < npix → val r (a * npix + b) = c a b) →
      ∃ r', loop (countsPixel model npix i (val energies i * val spec i) (val energies (i + 1) * val spec (i + 1))
        (Real.log (val energies (i + 1) / val energies i) / 2)) 0 npix r = .ok r' ∧
        r'.length = ne * npix ∧ ∀ a b, a < i + 1 → b < npix → val r' (a * npix + b) = c a b := by
    intro i r hi ⟨q1, q2⟩
    obtain ⟨r', p1, p2, p3, p4⟩ := loop_inv (body := countsPixel model npix i (val energies i * val spec i)
        (val energies (i + 1) * val spec (i + 1)) (Real.log (val energies (i + 1) / val energies i) / 2))
      (P := fun j r => r.length = ne * npix ∧ (∀ a b, a < i → b < npix → val r (a * npix + b) = c a b) ∧
        ∀ b, b < j → val r (i * npix + b) = c i b) (lo := 0) (n := npix) (s := r) ⟨q1, q2, fun b hb => by omega⟩ (by
      intro j r _ hj ⟨s1, s2, s3⟩
      have hjn : j < npix := by omega
      have l1 : i * npix + j < model.length := by rw [h3]; exact idx_lt hjn (by omega)
      have e2 : i * npix + j + npix = (i + 1) * npix + j := by ring
      have l2 : (i + 1) * npix + j < model.length := by rw [h3]; exact idx_lt hjn (by omega)
      have l3 : i * npix + j < r.length := by rw [s1]; exact idx_lt hjn hi
      refine ⟨r.set (i * npix + j) (c i j), ?_, by simp [s1], ?_, ?_⟩
      · unfold countsPixel
        rw [vget_val l1, Res.bind_ok, e2, vget_val l2, Res.bind_ok]
        unfold vset
        rw [if_pos l3]
        congr 2
        rw [hc]
        simp only [counts]
        ring
      · intro a b ha hb
        rw [val_set l3, if_neg (by intro e; have := (idx_inj hb hjn e).1; omega)]
        exact s2 a b ha hb
      · intro b hb
        rw [val_set l3]
        by_cases e : b = j
        · subst e; rw [if_pos rfl]
        · rw [if_neg (by omega)]
          exact s3 b (by omega))
    refine ⟨r', p1, p2, ?_⟩
    intro a b ha hb
    by_cases e : a = i
    · subst e; exact p4 b (by omega)
    · exact p3 a b (by omega) hb
  obtain ⟨r, p1, p2, p3⟩ := loop_inv (body := fun i (out : List ℝ) => (do
      let e1 ← vget energies i
      let s1 ← vget spec i
      let e2 ← vget energies (i + 1)
      let s2 ← vget spec (i + 1)
      loop (countsPixel model npix i (e1 * s1) (e2 * s2) (Real.log (e2 / e1) / 2)) 0 npix out : Res (List ℝ)))
    (P := fun i r => r.length = ne * npix ∧ ∀ a b, a < i → b < npix → val r (a * npix + b) = c a b) (lo := 0) (n := ne) (s := out)
    ⟨h4, fun a b ha => by omega⟩ (by
    intro i r _ hi hp
    rw [vget_val (show i < energies.length by omega), Res.bind_ok, vget_val (show i < spec.length by omega), Res.bind_ok,
      vget_val (show i + 1 < energies.length by omega), Res.bind_ok, vget_val (show i + 1 < spec.length by omega), Res.bind_ok]
    exact hrow i r (by omega) hp)
  exact ⟨r, p1, p2, fun i j hi hj => p3 i j (by omega) hj⟩

/-! ### Singular values -/

theorem ortho_right {n : Nat} {u : Mat n} (h : u.transpose * u = 1) : u * u.transpose = 1 := mul_eq_one_comm.1 h

/-- A matrix of the given singular values. -/
def build {n : Nat} (u : Mat n) (s : Fin n → ℝ) (v : Mat n) : Mat n := u * Matrix.diagonal s * v.transpose

theorem build_mul {n : Nat} {u v w : Mat n} (h : v.transpose * v = 1) (s t : Fin n → ℝ) :
    build u s v * build v t w = build u (fun i => s i * t i) w := by
  unfold build
  calc u * Matrix.diagonal s * v.transpose * (v * Matrix.diagonal t * w.transpose)
      = u * Matrix.diagonal s * (v.transpose * v) * Matrix.diagonal t * w.transpose := by simp only [Matrix.mul_assoc]
    _ = u * (Matrix.diagonal s * Matrix.diagonal t) * w.transpose := by rw [h, Matrix.mul_one, Matrix.mul_assoc u]
    _ = u * Matrix.diagonal (fun i => s i * t i) * w.transpose := by rw [Matrix.diagonal_mul_diagonal]

theorem build_transpose {n : Nat} (u : Mat n) (s : Fin n → ℝ) (v : Mat n) : (build u s v).transpose = build v s u := by
  unfold build
  rw [Matrix.transpose_mul, Matrix.transpose_mul, Matrix.transpose_transpose, Matrix.diagonal_transpose, Matrix.mul_assoc]

theorem svdInverse_build {n : Nat} (u v : Mat n) (s : Fin n → ℝ) :
    svdInverse u v s = build v (fun i => open Classical in if s i ≤ 0 then 0 else 1 / s i) u := rfl

/-- The inverse from singular values fulfils the conditions of Moore and Penrose. -/
theorem C131_inverse {n : Nat} (a u v : Mat n) (s : Fin n → ℝ) (h : IsSvd a u s v) : Pseudo a (svdInverse u v s) := by
  have ha : a = build u s v := h.eq
  rw [svdInverse_build, ha]
  have k : ∀ i, s i * (open Classical in if s i ≤ 0 then 0 else 1 / s i) * s i = s i := by
    intro i
    split
    · rename_i c; have := le_antisymm c (h.nonneg i); rw [this]; simp
    · rename_i c; have : s i ≠ 0 := fun e => c e.le; field_simp
  have k2 : ∀ i, (open Classical in if s i ≤ 0 then 0 else 1 / s i) * s i * (open Classical in if s i ≤ 0 then 0 else 1 / s i) =
      (open Classical in if s i ≤ 0 then 0 else 1 / s i) := by
    intro i
    split
    · simp
    · rename_i c; have : s i ≠ 0 := fun e => c e.le; field_simp
  refine ⟨?_, ?_, ?_, ?_⟩
  · rw [build_mul h.v, build_mul h.u]; congr 1; exact funext k
  · rw [build_mul h.u, build_mul h.v]; congr 1; exact funext k2
  · rw [build_mul h.v, build_transpose]
  · rw [build_mul h.u, build_transpose]

/-- If no singular value is zero it is the inverse. -/
theorem C131_inverse_exact {n : Nat} (a u v : Mat n) (s : Fin n → ℝ) (h : IsSvd a u s v) (hs : ∀ i, s i ≠ 0) :
    svdInverse u v s * a = 1 ∧ a * svdInverse u v s = 1 := by
  have ha : a = build u s v := h.eq
  have k : ∀ i, (open Classical in if s i ≤ 0 then 0 else 1 / s i) * s i = 1 := by
    intro i
    rw [if_neg (not_le.2 (lt_of_le_of_ne (h.nonneg i) (hs i).symm))]
    have := hs i
    field_simp
  have h1 : svdInverse u v s * a = 1 := by
    rw [svdInverse_build, ha, build_mul h.u]
    have : (fun i => (open Classical in if s i ≤ 0 then 0 else 1 / s i) * s i) = fun _ : Fin n => (1 : ℝ) := funext k
    rw [this]
    unfold build
    rw [Matrix.diagonal_one, Matrix.mul_one]
    exact ortho_right h.v
  exact ⟨h1, mul_eq_one_comm.1 h1⟩

theorem lenSq_ortho {n : Nat} {u : Mat n} (h : u.transpose * u = 1) (x : Fin n → ℝ) : lenSq (u.mulVec x) = lenSq x := by
  unfold lenSq
  rw [Matrix.dotProduct_mulVec, Matrix.vecMul_mulVec, h]
  simp

theorem lenSq_sum {n : Nat} (x : Fin n → ℝ) : lenSq x = ∑ i, x i * x i := rfl

theorem residual {n : Nat} {u v : Mat n} (hu : u.transpose * u = 1) (hv : v.transpose * v = 1) (s y g : Fin n → ℝ) :
    lenSq ((build u s v).mulVec y - g) = ∑ i, (s i * v.transpose.mulVec y i - u.transpose.mulVec g i) *
      (s i * v.transpose.mulVec y i - u.transpose.mulVec g i) := by
  have hu' : u.transpose.transpose * u.transpose = 1 := by rw [Matrix.transpose_transpose]; exact ortho_right hu
  rw [← lenSq_ortho hu' ((build u s v).mulVec y - g), lenSq_sum]
  have e : u.transpose.mulVec ((build u s v).mulVec y - g) = fun i => s i * v.transpose.mulVec y i - u.transpose.mulVec g i := by
    rw [Matrix.mulVec_sub, Matrix.mulVec_mulVec]
    have : u.transpose * build u s v = Matrix.diagonal s * v.transpose := by
      unfold build
      rw [← Matrix.mul_assoc, ← Matrix.mul_assoc, hu, Matrix.one_mul]
    rw [this, ← Matrix.mulVec_mulVec]
    funext i
    rw [Pi.sub_apply, Matrix.mulVec_diagonal]
  rw [e]

theorem solve_coord {n : Nat} {u v : Mat n} (hv : v.transpose * v = 1) (s g : Fin n → ℝ) (i : Fin n) :
    v.transpose.mulVec (svSolve u v s g) i = (open Classical in if s i ≠ 0 then 1 / s i else s i) * u.transpose.mulVec g i := by
  unfold svSolve
  rw [Matrix.mulVec_mulVec, hv, Matrix.one_mulVec]

/-- The solution of a system with the singular values that are kept: no vector comes nearer to the right-hand side, and those that
come as near are not shorter. -/
theorem C131_least {n : Nat} (a u v : Mat (n + 1)) (s g : Fin (n + 1) → ℝ) (eps : ℝ) (h : IsSvd a u s v) (y : Fin (n + 1) → ℝ) :
    let r := svdSolve u v s eps g
    let a' := u * Matrix.diagonal r.2 * v.transpose
    lenSq (a'.mulVec r.1 - g) ≤ lenSq (a'.mulVec y - g) ∧ (lenSq (a'.mulVec y - g) = lenSq (a'.mulVec r.1 - g) → lenSq r.1 ≤ lenSq y) := by
  intro r a'
  set t := truncate eps s with ht
  have hr1 : r.1 = svSolve u v t g := rfl
  have ha' : a' = build u t v := rfl
  rw [hr1, ha', residual h.u h.v, residual h.u h.v]
  set b := u.transpose.mulVec g with hb
  set z := v.transpose.mulVec y with hz
  have hx : ∀ i, v.transpose.mulVec (svSolve u v t g) i = (open Classical in if t i ≠ 0 then 1 / t i else t i) * b i :=
    fun i => solve_coord h.v t g i
  have hterm : ∀ i, (t i * v.transpose.mulVec (svSolve u v t g) i - b i) * (t i * v.transpose.mulVec (svSolve u v t g) i - b i) ≤
      (t i * z i - b i) * (t i * z i - b i) := by
    intro i
    rw [hx i]
    by_cases c : t i = 0
    · rw [if_neg (not_not.2 c), c]; simp
    · rw [if_pos c]
      have : t i * (1 / t i * b i) - b i = 0 := by field_simp; ring
      rw [this, zero_mul]
      exact mul_self_nonneg _
  refine ⟨Finset.sum_le_sum (fun i _ => hterm i), ?_⟩
  intro heq
  have hall := (Finset.sum_eq_sum_iff_of_le (fun i _ => hterm i)).1 heq.symm
  have hvt : v.transpose.transpose * v.transpose = 1 := by rw [Matrix.transpose_transpose]; exact ortho_right h.v
  rw [← lenSq_ortho hvt (svSolve u v t g), ← lenSq_ortho hvt y, lenSq_sum, lenSq_sum]
  apply Finset.sum_le_sum
  intro i _
  have hi := hall i (Finset.mem_univ i)
  rw [hx i] at hi ⊢
  by_cases c : t i = 0
  · rw [if_neg (not_not.2 c), c]
    simp only [zero_mul]
    exact mul_self_nonneg _
  · rw [if_pos c] at hi ⊢
    have e0 : t i * (1 / t i * b i) - b i = 0 := by field_simp; ring
    rw [e0, zero_mul] at hi
    have e1 : t i * z i - b i = 0 := mul_self_eq_zero.1 hi.symm
    have e2 : 1 / t i * b i = z i := by
      have : b i = t i * z i := by linarith
      rw [this]; field_simp
    rw [e2]

/-- If all singular values are kept and none is zero the system is solved. -/
theorem C131_solve {n : Nat} (a u v : Mat (n + 1)) (s g : Fin (n + 1) → ℝ) (eps : ℝ) (h : IsSvd a u s v)
    (hk : (svdSolve u v s eps g).2 = s) (hs : ∀ i, s i ≠ 0) : a.mulVec (svdSolve u v s eps g).1 = g := by
  have hx : (svdSolve u v s eps g).1 = (svdInverse u v s).mulVec g := by
    have : (svdSolve u v s eps g).1 = svSolve u v s g := by
      unfold svdSolve at hk ⊢
      simp only at hk ⊢
      rw [hk]
    rw [this]
    unfold svSolve svdInverse
    rw [← Matrix.mulVec_mulVec, ← Matrix.mulVec_mulVec]
    congr 1
    funext i
    rw [Matrix.mulVec_diagonal, if_pos (hs i), if_neg (not_le.2 (lt_of_le_of_ne (h.nonneg i) (hs i).symm))]
  rw [hx, Matrix.mulVec_mulVec, (C131_inverse_exact a u v s h hs).2, Matrix.one_mulVec]

/-- What is dropped is small: the matrix with the singular values kept differs from the matrix by no more than the fraction
`eps √(2n+1) / 2` of its largest singular value. -/
theorem C131_dropped {n : Nat} (a u v : Mat (n + 1)) (s g : Fin (n + 1) → ℝ) (eps : ℝ) (h : IsSvd a u s v) (h0 : 0 ≤ eps) (y : Fin (n + 1) → ℝ) :
    lenSq ((a - u * Matrix.diagonal (svdSolve u v s eps g).2 * v.transpose).mulVec y) ≤
      (eps * Real.sqrt (2 * ((n : ℝ) + 1) + 1) / 2 * s 0) ^ 2 * lenSq y := by
  have hthr : threshold (n + 1) (s 0) eps = eps * Real.sqrt (2 * ((n : ℝ) + 1) + 1) / 2 * s 0 := by
    unfold threshold
    rw [show ((n + 1 : Nat) : ℝ) + ((n + 1 : Nat) : ℝ) + 1 = 2 * ((n : ℝ) + 1) + 1 by push_cast; ring]
    ring
  rw [← hthr]
  have hd : a - u * Matrix.diagonal (svdSolve u v s eps g).2 * v.transpose = build u (fun i => s i - truncate eps s i) v := by
    rw [h.eq]
    unfold build svdSolve
    simp only
    rw [← Matrix.sub_mul, ← Matrix.mul_sub, Matrix.diagonal_sub]
  rw [hd]
  have hz : lenSq ((build u (fun i => s i - truncate eps s i) v).mulVec y) = ∑ i, ((s i - truncate eps s i) * v.transpose.mulVec y i) *
      ((s i - truncate eps s i) * v.transpose.mulVec y i) := by
    have := residual h.u h.v (fun i => s i - truncate eps s i) y 0
    simpa using this
  have hvt : v.transpose.transpose * v.transpose = 1 := by rw [Matrix.transpose_transpose]; exact ortho_right h.v
  rw [hz, ← lenSq_ortho hvt y, lenSq_sum, Finset.mul_sum]
  apply Finset.sum_le_sum
  intro i _
  have hb : (s i - truncate eps s i) ^ 2 ≤ threshold (n + 1) (s 0) eps ^ 2 := by
    unfold truncate
    split
    · rename_i c
      rw [sub_zero]
      exact sq_le_sq' (by have := neg_abs_le (s i); linarith) (by have := le_abs_self (s i); linarith)
    · rw [sub_self, zero_pow two_ne_zero]; exact sq_nonneg _
  nlinarith [mul_self_nonneg (v.transpose.mulVec y i)]

/-- Which singular values are kept does not depend on the units of the matrix. -/
theorem C131_units {n : Nat} (u v : Mat (n + 1)) (s g : Fin (n + 1) → ℝ) (eps c : ℝ) (hc : 0 < c) :
    (svdSolve u v (fun i => c * s i) eps g).2 = (fun i => c * (svdSolve u v s eps g).2 i) ∧
    (svdSolve u v (fun i => c * s i) eps g).1 = (fun i => (svdSolve u v s eps g).1 i / c) := by
  have ht : truncate eps (fun i => c * s i) = fun i => c * truncate eps s i := by
    funext i
    unfold truncate
    have e : threshold (n + 1) (c * s 0) eps = c * threshold (n + 1) (s 0) eps := by unfold threshold; ring
    rw [e, abs_mul, abs_of_pos hc]
    by_cases q : |s i| < threshold (n + 1) (s 0) eps
    · rw [if_pos q, if_pos (by nlinarith), mul_zero]
    · rw [if_neg q, if_neg (by rw [not_lt] at q ⊢; nlinarith)]
  refine ⟨ht, ?_⟩
  unfold svdSolve
  simp only
  rw [ht]
  unfold svSolve
  have e : (fun i => (open Classical in if c * truncate eps s i ≠ 0 then 1 / (c * truncate eps s i) else c * truncate eps s i) *
      u.transpose.mulVec g i) = (1 / c) • fun i => (open Classical in if truncate eps s i ≠ 0 then 1 / truncate eps s i else truncate eps s i) *
      u.transpose.mulVec g i := by
    funext i
    rw [Pi.smul_apply, smul_eq_mul]
    by_cases q : truncate eps s i = 0
    · rw [if_neg (by rw [q]; simp), if_neg (not_not.2 q), q]; simp
    · rw [if_pos (mul_ne_zero hc.ne' q), if_pos q]; field_simp
  rw [e, Matrix.mulVec_smul]
  funext i
  rw [Pi.smul_apply, smul_eq_mul]
  ring

/-! ### The covariance matrix -/

theorem pseudo_left {n : Nat} {a x y : Mat n} (hx : Pseudo a x) (hy : Pseudo a y) : a * x = a * y := by
  calc a * x = a * y * a * x := by rw [hy.axa]
    _ = (a * y) * (a * x) := by rw [Matrix.mul_assoc]
    _ = (a * y).transpose * (a * x).transpose := by rw [hx.ax, hy.ax]
    _ = (a * x * (a * y)).transpose := by rw [Matrix.transpose_mul (a * x)]
    _ = (a * x * a * y).transpose := by rw [← Matrix.mul_assoc (a * x)]
    _ = a * y := by rw [hx.axa, hy.ax]

theorem pseudo_right {n : Nat} {a x y : Mat n} (hx : Pseudo a x) (hy : Pseudo a y) : x * a = y * a := by
  calc x * a = x * (a * y * a) := by rw [hy.axa]
    _ = (x * a) * (y * a) := by simp only [Matrix.mul_assoc]
    _ = (x * a).transpose * (y * a).transpose := by rw [hx.xa, hy.xa]
    _ = (y * a * (x * a)).transpose := by rw [Matrix.transpose_mul (y * a)]
    _ = (y * (a * x * a)).transpose := by simp only [Matrix.mul_assoc]
    _ = y * a := by rw [hx.axa, hy.xa]

theorem pseudo_unique {n : Nat} {a x y : Mat n} (hx : Pseudo a x) (hy : Pseudo a y) : x = y := by
  calc x = x * a * x := hx.xax.symm
    _ = x * (a * x) := Matrix.mul_assoc _ _ _
    _ = x * a * y := by rw [pseudo_left hx hy, ← Matrix.mul_assoc]
    _ = y * a * y := by rw [pseudo_right hx hy]
    _ = y := hy.xax

/-- The inverse is that of the matrix, whatever decomposition is found. -/
theorem C131_unique {n : Nat} (a u v u' v' : Mat n) (s s' : Fin n → ℝ) (h : IsSvd a u s v) (h' : IsSvd a u' s' v') :
    svdInverse u v s = svdInverse u' v' s' := pseudo_unique (C131_inverse a u v s h) (C131_inverse a u' v' s' h')

/-- A Hessian that can be inverted, with no negative variances: its inverse is the covariance matrix, whatever the damping. -/
theorem C131_covariance_partial {n : Nat} (hessian u v : Mat (n + 1)) (s : Fin (n + 1) → ℝ) (eps : ℝ) (h : hessian.det ≠ 0)
    (hp : ∀ i, 0 ≤ hessian⁻¹ i i) : hessian * covariance hessian u v s eps = 1 := by
  unfold covariance
  rw [if_neg (by
    rintro (c | ⟨i, c⟩)
    · exact h c
    · exact absurd (hp i) (not_le.2 c))]
  exact Matrix.mul_nonsing_inv _ (isUnit_iff_ne_zero.2 h)

/-- Otherwise the damping goes into the covariance matrix: a parameter that does not act on the model, beside one with the
variance `1 / c`, makes this variance `1 / ((1 + λ) c)`. -/
theorem C131_covariance_violates (c lambda eps : ℝ) (hc : 0 < c) (hl : 0 < lambda) (h0 : 0 ≤ eps) (h1 : eps ≤ 1 / 2) (u v : Mat 2)
    (s : Fin 2 → ℝ)
    (h : IsSvd (damped (Matrix.diagonal ![c, 0]) lambda) u s v) :
    covariance (Matrix.diagonal ![c, 0]) u v s eps 0 0 = 1 / ((1 + lambda) * c) ∧ 1 / ((1 + lambda) * c) < 1 / c := by
  have hd : damped (Matrix.diagonal ![c, 0]) lambda = Matrix.diagonal ![(1 + lambda) * c, 0] := by
    ext i j
    unfold damped
    fin_cases i <;> fin_cases j <;> simp
  have hs1 : s 1 = 0 := by
    have e := congrArg Matrix.det h.eq
    rw [hd, Matrix.det_mul, Matrix.det_mul, Matrix.det_transpose, Matrix.det_diagonal, Matrix.det_diagonal, Fin.prod_univ_two,
      Fin.prod_univ_two] at e
    have du : u.det ≠ 0 := by
      intro z
      have := congrArg Matrix.det h.u
      rw [Matrix.det_mul, z, mul_zero, Matrix.det_one] at this
      exact zero_ne_one this
    have dv : v.det ≠ 0 := by
      intro z
      have := congrArg Matrix.det h.v
      rw [Matrix.det_mul, z, mul_zero, Matrix.det_one] at this
      exact zero_ne_one this
    have z : u.det * (s 0 * s 1) * v.det = 0 := by rw [← e]; simp
    rcases mul_eq_zero.1 z with z | z
    · rcases mul_eq_zero.1 z with z | z
      · exact absurd z du
      · rcases mul_eq_zero.1 z with z | z
        · exact le_antisymm (z ▸ h.sorted 0 1 (by decide)) (h.nonneg 1)
        · exact z
    · exact absurd z dv
  have ht : truncate eps s = s := by
    funext i
    unfold truncate
    by_cases q : |s i| < threshold 2 (s 0) eps
    · rw [if_pos q]
      fin_cases i
      · exfalso
        unfold threshold at q
        have h5 : Real.sqrt (((2 : Nat) : ℝ) + ((2 : Nat) : ℝ) + 1) ≤ 3 := by
          rw [Real.sqrt_le_left (by norm_num)]; norm_num
        have hn := h.nonneg 0
        rw [show |s ((fun i => i) ⟨0, by omega⟩)| = s 0 from abs_of_nonneg hn] at q
        have : 0.5 * Real.sqrt (((2 : Nat) : ℝ) + ((2 : Nat) : ℝ) + 1) * s 0 * eps ≤ 0.5 * 3 * s 0 * eps := by
          apply mul_le_mul_of_nonneg_right _ h0
          apply mul_le_mul_of_nonneg_right _ hn
          exact mul_le_mul_of_nonneg_left h5 (by norm_num)
        nlinarith [mul_le_mul_of_nonneg_left h1 hn]
      · exact hs1.symm
    · rw [if_neg q]
  have hk : (1 + lambda) * c ≠ 0 := by positivity
  have hs : IsSvd (Matrix.diagonal ![(1 + lambda) * c, 0]) 1 ![(1 + lambda) * c, 0] 1 :=
    { eq := by simp
      u := by simp
      v := by simp
      nonneg := by
        intro i
        have : 0 ≤ (1 + lambda) * c := by positivity
        fin_cases i
        · exact this
        · exact le_refl _
      sorted := by
        intro i j hij
        have : 0 ≤ (1 + lambda) * c := by positivity
        fin_cases i <;> fin_cases j
        · exact le_refl _
        · exact this
        · exact absurd hij (by decide)
        · exact le_refl _ }
  rw [hd] at h
  constructor
  · unfold covariance
    rw [if_pos (Or.inl (by simp [Matrix.det_diagonal])), ht, C131_unique _ _ _ _ _ _ _ h hs]
    unfold svdInverse
    have : ¬ (1 + lambda) * c ≤ 0 := not_le.2 (by positivity)
    simp [this]
  · apply one_div_lt_one_div_of_lt hc
    nlinarith

/-! ### The hypotheses can be met -/

/-- A vector of four elements that is not symmetric: the second one is lost. -/
example : ∃ m, stlToSym [1, 2, 3, 4] = .ok m ∧ m.get 0 1 = 3 := by
  obtain ⟨m, h1, _, h2⟩ := C131_lower_violates [1, 2, 3, 4] 2 rfl
  exact ⟨m, h1, (h2 1 0 (by omega) (by omega)).2⟩

/-- A vector of three elements. -/
example : stlToSym [1, 2, 3] = .ub := by
  apply C131_square_violates
  intro n h
  simp only [List.length_cons, List.length_nil] at h
  rcases Nat.lt_or_ge n 2 with c | c
  · have : n = 0 ∨ n = 1 := by omega
    rcases this with rfl | rfl <;> omega
  · nlinarith

/-- A diagonal matrix and its singular values. -/
example : IsSvd (Matrix.diagonal ![(3 : ℝ), 0]) 1 ![3, 0] 1 where
  eq := by simp
  u := by simp
  v := by simp
  nonneg := by intro i; fin_cases i <;> simp
  sorted := by intro i j h; fin_cases i <;> fin_cases j <;> simp at h ⊢

end Verif.MatVec
