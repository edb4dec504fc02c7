import Verif.FitScan.Model
import Verif.FitScan.Spec
import Verif.FitUtils.Compress
set_option linter.unusedSimpArgs false
set_option linter.unusedVariables false
/-
Energy layers in the compressed vectors.
-/
namespace Verif.FitScan
open Verif.FitUtils Spec

/-- A layer of the compressed data. -/
noncomputable def red (L : List ℝ) : List ℝ := L.filter (fun d => decide ((1e-15 : ℝ) < d)) ++ [0]

/-- The model in the bins with counts. -/
noncomputable def redHead : List ℝ → List ℝ → List ℝ
  | d :: ds, m :: ms => (if (1e-15 : ℝ) < d then [m] else []) ++ redHead ds ms
  | _, _ => []

/-- The sum of the model in the bins without. -/
noncomputable def redRest : List ℝ → List ℝ → ℝ
  | d :: ds, m :: ms => (if (1e-15 : ℝ) < d then 0 else m) + redRest ds ms
  | _, _ => 0

/-- A layer of the compressed model. -/
noncomputable def redModel (L M : List ℝ) : List ℝ := redHead L M ++ [redRest L M]

/-- `isEnd` marks the ends of the layers starting at bin `i`. -/
def Ends (isEnd : Nat → Bool) : Nat → List (List ℝ) → Prop
  | _, [] => True
  | i, L :: Ls => L ≠ [] ∧ (∀ j < L.length, isEnd (i + j) = decide (j + 1 = L.length)) ∧ Ends isEnd (i + L.length) Ls

theorem ends_shift {isEnd : Nat → Bool} {i : Nat} {d e : ℝ} {L : List ℝ}
    (h : ∀ j < (d :: e :: L).length, isEnd (i + j) = decide (j + 1 = (d :: e :: L).length)) :
    ∀ j < (e :: L).length, isEnd (i + 1 + j) = decide (j + 1 = (e :: L).length) := by
  intro j hj
  have := h (j + 1) (by simpa using hj)
  rw [show i + 1 + j = i + (j + 1) by omega, this]
  simp

theorem dr_layer {isEnd : Nat → Bool} {ds : List ℝ} : ∀ {L : List ℝ} {i : Nat} (hL : L ≠ [])
    (h : ∀ j < L.length, isEnd (i + j) = decide (j + 1 = L.length)),
    drPure isEnd i (L ++ ds) = red L ++ drPure isEnd (i + L.length) ds
  | [], _, hL, _ => absurd rfl hL
  | [d], i, _, h => by
    have h0 : isEnd i = true := by simpa using h 0 (by simp)
    by_cases hd : (1e-15 : ℝ) < d <;> simp [drPure, red, h0, hd]
  | d :: e :: L, i, _, h => by
    have h0 : isEnd i = false := by simpa using h 0 (by simp)
    have ih := dr_layer (isEnd := isEnd) (ds := ds) (L := e :: L) (i := i + 1) (by simp) (ends_shift h)
    rw [List.cons_append, drPure, h0, ih]
    have hl : i + 1 + (e :: L).length = i + (d :: e :: L).length := by simp; omega
    rw [hl]
    by_cases hd : (1e-15 : ℝ) < d
    · simp [red, List.filter_cons, hd]
    · simp [red, List.filter_cons, hd]

theorem stops_layer {isEnd : Nat → Bool} {ds : List ℝ} : ∀ {L : List ℝ} {i n : Nat} (hL : L ≠ [])
    (h : ∀ j < L.length, isEnd (i + j) = decide (j + 1 = L.length)),
    stopsPure isEnd i n (L ++ ds) = (n + (red L).length) :: stopsPure isEnd (i + L.length) (n + (red L).length) ds
  | [], _, _, hL, _ => absurd rfl hL
  | [d], i, n, _, h => by
    have h0 : isEnd i = true := by simpa using h 0 (by simp)
    by_cases hd : (1e-15 : ℝ) < d <;> simp [stopsPure, red, h0, hd, Nat.add_assoc]
  | d :: e :: L, i, n, _, h => by
    have h0 : isEnd i = false := by simpa using h 0 (by simp)
    have ih := fun n => stops_layer (isEnd := isEnd) (ds := ds) (L := e :: L) (i := i + 1) (n := n) (by simp) (ends_shift h)
    rw [List.cons_append, stopsPure, h0]
    simp only [Bool.false_eq_true, if_false]
    rw [ih]
    have hl : i + 1 + (e :: L).length = i + (d :: e :: L).length := by simp; omega
    rw [hl]
    have hr : n + (if (1e-15 : ℝ) < d then 1 else 0) + (red (e :: L)).length = n + (red (d :: e :: L)).length := by
      by_cases hd : (1e-15 : ℝ) < d
      · rw [if_pos hd]
        have : red (d :: e :: L) = d :: red (e :: L) := by
          unfold red
          rw [List.filter_cons_of_pos (by simpa using hd), List.cons_append]
        rw [this, List.length_cons]; omega
      · rw [if_neg hd]
        have : red (d :: e :: L) = red (e :: L) := by
          unfold red
          rw [List.filter_cons_of_neg (by simpa using hd)]
        rw [this]; omega
    rw [hr]

theorem redM_layer {isEnd : Nat → Bool} {ds ms : List ℝ} : ∀ {L M : List ℝ} {i : Nat} {acc : ℝ} (hL : L ≠ [])
    (hlen : L.length = M.length) (h : ∀ j < L.length, isEnd (i + j) = decide (j + 1 = L.length)),
    redM isEnd i acc (L ++ ds) (M ++ ms) =
      redHead L M ++ (acc + redRest L M) :: redM isEnd (i + L.length) 0 ds ms
  | [], _, _, _, hL, _, _ => absurd rfl hL
  | [d], [], _, _, _, hlen, _ => by simp at hlen
  | [d], [m], i, acc, _, hlen, h => by
    have h0 : isEnd i = true := by simpa using h 0 (by simp)
    by_cases hd : (1e-15 : ℝ) < d <;> simp [redM, redHead, redRest, h0, hd]
  | [d], m :: n :: M, _, _, _, hlen, _ => by simp at hlen
  | d :: e :: L, [], _, _, _, hlen, _ => by simp at hlen
  | d :: e :: L, [m], _, _, _, hlen, _ => by simp at hlen
  | d :: e :: L, m :: m' :: M, i, acc, _, hlen, h => by
    have h0 : isEnd i = false := by simpa using h 0 (by simp)
    have ih := fun acc => redM_layer (isEnd := isEnd) (ds := ds) (ms := ms) (L := e :: L) (M := m' :: M) (i := i + 1)
      (acc := acc) (by simp) (by simpa using hlen) (ends_shift h)
    rw [show (d :: e :: L) ++ ds = d :: (e :: L ++ ds) from rfl, show (m :: m' :: M) ++ ms = m :: (m' :: M ++ ms) from rfl]
    rw [redM, h0]
    simp only [Bool.false_eq_true, if_false]
    rw [ih]
    have hl : i + 1 + (e :: L).length = i + (d :: e :: L).length := by simp; omega
    rw [hl]
    by_cases hd : (1e-15 : ℝ) < d
    · simp [redHead, redRest, hd]
    · simp [redHead, redRest, hd, add_assoc]

theorem dr_layers {isEnd : Nat → Bool} : ∀ {Ls : List (List ℝ)} {i : Nat} (h : Ends isEnd i Ls),
    drPure isEnd i Ls.flatten = (Ls.map red).flatten
  | [], _, _ => by simp [drPure]
  | L :: Ls, i, h => by
    rw [List.flatten_cons, dr_layer h.1 h.2.1, dr_layers h.2.2]; simp

theorem stops_layers {isEnd : Nat → Bool} : ∀ {Ls : List (List ℝ)} {i n : Nat} (h : Ends isEnd i Ls),
    (stopsPure isEnd i n Ls.flatten).length = Ls.length ∧
    ∀ k < Ls.length, (stopsPure isEnd i n Ls.flatten)[k]? = some (n + ((Ls.map red).take (k + 1)).flatten.length)
  | [], _, _, _ => by simp [stopsPure]
  | L :: Ls, i, n, h => by
    rw [List.flatten_cons, stops_layer h.1 h.2.1]
    obtain ⟨h1, h2⟩ := stops_layers (n := n + (red L).length) h.2.2
    refine ⟨by simp [h1], ?_⟩
    intro k hk
    cases k with
    | zero => simp
    | succ k =>
      rw [List.getElem?_cons_succ, h2 k (by simpa using hk)]
      simp only [List.map_cons, List.take_succ_cons, List.flatten_cons, List.length_append]
      congr 1; omega

theorem redM_layers {isEnd : Nat → Bool} : ∀ {Ls Ms : List (List ℝ)} {i : Nat} (h : Ends isEnd i Ls)
    (hl : List.Forall₂ (fun L M => L.length = M.length) Ls Ms),
    redM isEnd i 0 Ls.flatten Ms.flatten = (List.zipWith redModel Ls Ms).flatten
  | [], _, _, _, .nil => by simp [redM]
  | L :: Ls, M :: Ms, i, h, .cons h1 h2 => by
    rw [List.flatten_cons, List.flatten_cons, redM_layer h.1 h1 h.2.1, redM_layers h.2.2 h2]
    simp [redModel]

/-! ### Partial sums -/

theorem take_flatten : ∀ (Ls : List (List ℝ)) (k : Nat),
    Ls.flatten.take ((Ls.take k).flatten.length) = (Ls.take k).flatten
  | [], k => by simp
  | L :: Ls, 0 => by simp
  | L :: Ls, k + 1 => by
    simp only [List.flatten_cons, List.take_succ_cons, List.length_append]
    rw [List.take_append, List.take_of_length_le (by omega), Nat.add_sub_cancel_left, take_flatten Ls k]

theorem drop_flatten : ∀ (Ls : List (List ℝ)) (k : Nat),
    Ls.flatten.drop ((Ls.take k).flatten.length) = (Ls.drop k).flatten
  | [], k => by simp
  | L :: Ls, 0 => by simp
  | L :: Ls, k + 1 => by
    simp only [List.flatten_cons, List.take_succ_cons, List.length_append, List.drop_succ_cons]
    rw [List.drop_append, List.drop_eq_nil_of_le (by omega), Nat.add_sub_cancel_left, drop_flatten Ls k]
    simp

theorem slice_flatten (Ls : List (List ℝ)) {a b : Nat} (hab : a ≤ b) :
    part Ls.flatten ((Ls.take a).flatten.length) ((Ls.take b).flatten.length) = bins Ls a b := by
  unfold part bins
  rw [take_flatten]
  have : Ls.take a = (Ls.take b).take a := by rw [List.take_take, Nat.min_eq_left hab]
  rw [this, drop_flatten]

theorem flatten_take_mono (Ls : List (List ℝ)) {a b : Nat} (hab : a ≤ b) :
    (Ls.take a).flatten.length ≤ (Ls.take b).flatten.length := by
  have : Ls.take a = (Ls.take b).take a := by rw [List.take_take, Nat.min_eq_left hab]
  rw [this, ← take_flatten]
  simp

theorem flatten_take_le (Ls : List (List ℝ)) (b : Nat) : (Ls.take b).flatten.length ≤ Ls.flatten.length := by
  rw [← take_flatten]; simp

/-- The number of pixels up to an energy bin. -/
def psum (npix : List Nat) (k : Nat) : Nat := (npix.take k).sum

theorem psum_layers (Ls : List (List ℝ)) (k : Nat) : psum (Ls.map List.length) k = (Ls.take k).flatten.length := by
  unfold psum
  rw [← List.map_take, List.length_flatten]

/-- The vector of stops before compression. -/
theorem setStops_eq (npix old : List Nat) :
    setEnergyBinStopIdxs npix old = .ok ((List.range (npix.length + 1)).map (psum npix)) := by
  unfold setEnergyBinStopIdxs
  simp only []
  rw [vset_lt _ _ _ (by rw [vresize_length]; omega), Res.bind_ok]
  obtain ⟨s, h1, h2⟩ := loop_inv (body := stopsBody npix) (lo := 0) (n := npix.length)
    (s := (0, (vresize old (npix.length + 1) 0).set 0 0))
    (fun i s => s.1 = psum npix i ∧ s.2.length = npix.length + 1 ∧ ∀ k ≤ i, s.2[k]? = some (psum npix k))
    (by
      refine ⟨by simp [psum], by simp, fun k hk => ?_⟩
      have : k = 0 := by omega
      subst this
      rw [List.getElem?_set_self (by simp)]; simp [psum])
    (by
      rintro i ⟨a, v⟩ _ hi ⟨h1, h2, h3⟩
      simp only at h1 h2 h3
      have hi' : i < npix.length := by omega
      have hs : a + npix[i] = psum npix (i + 1) := by
        rw [h1]; unfold psum
        rw [List.take_add_one, List.getElem?_eq_getElem hi', Option.toList_some, List.sum_append, List.sum_singleton]
      refine ⟨(psum npix (i + 1), v.set (i + 1) (psum npix (i + 1))), ?_, rfl, by simp [h2], ?_⟩
      · unfold stopsBody
        rw [vget_lt _ _ hi', Res.bind_ok]
        simp only [hs]
        rw [vset_lt _ _ _ (by omega), Res.bind_ok]
      · intro k hk
        rw [List.getElem?_set]
        by_cases hki : i + 1 = k
        · subst hki; simp [h2]; omega
        · rw [if_neg hki]; exact h3 k (by omega))
  rw [h1, Res.bind_ok]
  congr 1
  refine List.ext_getElem? fun k => ?_
  by_cases hk : k < npix.length + 1
  · rw [h2.2.2 k (by omega)]
    simp [hk]
  · rw [List.getElem?_eq_none (by rw [h2.2.1]; omega), List.getElem?_eq_none (by simp; omega)]

theorem mem_range_psum {npix : List Nat} {x : Nat} :
    x ∈ (List.range (npix.length + 1)).map (psum npix) ↔ ∃ k ≤ npix.length, psum npix k = x := by
  simp only [List.mem_map, List.mem_range, Nat.lt_succ_iff]

theorem psum_lt {Ls : List (List ℝ)} (hne : ∀ L ∈ Ls, L ≠ []) {a b : Nat} (hab : a < b) (hb : b ≤ Ls.length) :
    psum (Ls.map List.length) a < psum (Ls.map List.length) b := by
  rw [psum_layers, psum_layers]
  have h1 : Ls.take (a + 1) = Ls.take a ++ [Ls[a]'(by omega)] := by
    rw [List.take_add_one, List.getElem?_eq_getElem (by omega)]; rfl
  have h2 := flatten_take_mono Ls (show a + 1 ≤ b from hab)
  rw [h1] at h2
  have h3 : 0 < (Ls[a]'(by omega)).length := List.length_pos_iff.mpr (hne _ (List.getElem_mem _))
  simp only [List.flatten_append, List.length_append, List.flatten_cons, List.flatten_nil, List.append_nil] at h2
  omega

/-- The stops before compression mark the ends of the layers. -/
theorem ends_psum {Ls : List (List ℝ)} (hne : ∀ L ∈ Ls, L ≠ []) : ∀ (k : Nat) (_ : k ≤ Ls.length),
    Ends (fun i => decide (i + 1 ∈ (List.range ((Ls.map List.length).length + 1)).map (psum (Ls.map List.length))))
      (psum (Ls.map List.length) (Ls.length - k)) (Ls.drop (Ls.length - k)) := by
  intro k
  induction k with
  | zero => intro _; simp [Ends]
  | succ k ih =>
    intro hk
    have hlt : Ls.length - (k + 1) < Ls.length := by omega
    have hs : Ls.length - (k + 1) + 1 = Ls.length - k := by omega
    have hp : psum (Ls.map List.length) (Ls.length - k) =
        psum (Ls.map List.length) (Ls.length - (k + 1)) + (Ls[Ls.length - (k + 1)]).length := by
      rw [← hs]
      unfold psum
      rw [List.take_add_one, List.getElem?_eq_getElem (by simpa using hlt), Option.toList_some, List.sum_append,
        List.sum_singleton, List.getElem_map]
    rw [List.drop_eq_getElem_cons hlt, hs]
    refine ⟨hne _ (List.getElem_mem _), ?_, ?_⟩
    · intro j hj
      simp only [decide_eq_decide]
      rw [mem_range_psum, List.length_map]
      constructor
      · rintro ⟨m, hm, he⟩
        by_contra hne'
        have h1 : psum (Ls.map List.length) (Ls.length - (k + 1)) < psum (Ls.map List.length) m := by omega
        have h2 : psum (Ls.map List.length) m < psum (Ls.map List.length) (Ls.length - k) := by omega
        have h3 : Ls.length - (k + 1) < m := by
          by_contra hc
          have : psum (Ls.map List.length) m ≤ psum (Ls.map List.length) (Ls.length - (k + 1)) := by
            rw [psum_layers, psum_layers]
            exact flatten_take_mono Ls (by omega)
          omega
        have h4 : psum (Ls.map List.length) (Ls.length - k) ≤ psum (Ls.map List.length) m := by
          rw [psum_layers, psum_layers]
          exact flatten_take_mono Ls (by omega)
        omega
      · intro he
        exact ⟨Ls.length - k, by omega, by omega⟩
    · rw [← hp]
      exact ih (by omega)

theorem slice_eq (v : List ℝ) {a b : Nat} (hab : a ≤ b) (hb : b ≤ v.length) : slice v a b = .ok (part v a b) := by
  unfold slice part
  rw [if_neg (by omega), List.drop_take]

end Verif.FitScan
