import Verif.HistND.Model
import Verif.HistND.Spec
import Verif.Energy.Lemmas
import Mathlib.Tactic.Ring
import Mathlib.Algebra.Order.Ring.Nat
import Mathlib.Algebra.BigOperators.Group.List.Basic
set_option linter.unusedVariables false
set_option linter.unusedSimpArgs false
set_option linter.unusedSectionVars false
namespace Verif.HistND

open Verif.Vec

theorem cell_lt {dims iv : List Nat} (h : InRange dims iv) : cell dims iv < dims.prod := by
  induction h with
  | nil => simp [cell]
  | cons hi hr ih =>
    rename_i i n is ns
    simp only [cell, List.prod_cons]
    calc i + n * cell ns is < n + n * cell ns is := by omega
      _ = n * (cell ns is + 1) := by ring
      _ ≤ n * ns.prod := Nat.mul_le_mul_left _ ih

theorem cell_inj {dims s t : List Nat} (hs : InRange dims s) (ht : InRange dims t)
    (h : cell dims s = cell dims t) : s = t := by
  induction hs generalizing t with
  | nil => cases ht; rfl
  | cons hi hr ih =>
    rename_i i n is ns
    cases ht with
    | cons hj hr' =>
      rename_i j js
      simp only [cell] at h
      have hmod : i = j := by
        have := congrArg (· % n) h
        simpa [Nat.add_mul_mod_self_left, Nat.mod_eq_of_lt hi, Nat.mod_eq_of_lt hj] using this
      subst hmod
      have : n * cell ns is = n * cell ns js := by omega
      rw [ih hr' (Nat.eq_of_mul_eq_mul_left (by omega) this)]

theorem cell_surj {dims : List Nat} {p : Nat} (h : p < dims.prod) :
    ∃ iv, InRange dims iv ∧ cell dims iv = p := by
  induction dims generalizing p with
  | nil => simp at h; subst h; exact ⟨[], List.Forall₂.nil, rfl⟩
  | cons n ns ih =>
    rw [List.prod_cons] at h
    have hn : 0 < n := Nat.pos_of_ne_zero (by rintro rfl; simp at h)
    obtain ⟨iv, h1, h2⟩ := ih (p := p / n) ((Nat.div_lt_iff_lt_mul hn).2 (by rw [Nat.mul_comm]; exact h))
    refine ⟨p % n :: iv, List.Forall₂.cons (Nat.mod_lt _ hn) h1, ?_⟩
    simp only [cell, h2]
    exact Nat.mod_add_div p n

theorem dot_strides (dims iv : List Nat) (s : Nat) :
    (List.zipWith (· * ·) (stridesFrom s dims) iv).sum = s * cell dims iv := by
  induction dims generalizing iv s with
  | nil => simp [stridesFrom, cell]
  | cons n ns ih =>
    cases iv with
    | nil => simp [cell]
    | cons i is =>
      simp only [stridesFrom, List.zipWith_cons_cons, List.sum_cons, ih, cell]
      ring

theorem stridesFrom_length (dims : List Nat) (s : Nat) : (stridesFrom s dims).length = dims.length := by
  induction dims generalizing s with
  | nil => rfl
  | cons n ns ih => simp [stridesFrom, ih]

theorem stridesFrom_val (dims : List Nat) (s i : Nat) (hi : i < dims.length) :
    val (stridesFrom s dims) i = s * (dims.take i).prod := by
  induction dims generalizing s i with
  | nil => simp at hi
  | cons n ns ih =>
    cases i with
    | zero => simp [stridesFrom]
    | succ i =>
      simp only [stridesFrom, val_cons_succ, List.take_succ_cons, List.prod_cons]
      rw [ih _ _ (by simpa using hi)]; ring

theorem prod_take_succ (dims : List Nat) (i : Nat) (hi : i < dims.length) :
    (dims.take (i + 1)).prod = (dims.take i).prod * val dims i := by
  rw [List.take_succ_eq_append_getElem hi, List.prod_append, val_lt hi]; simp

theorem prod_pos {dims : List Nat} (h : ∀ n ∈ dims, 0 < n) (i : Nat) : 0 < (dims.take i).prod := by
  apply Nat.pos_of_ne_zero
  intro h0
  rw [List.prod_eq_zero_iff] at h0
  exact absurd (h 0 (List.mem_of_mem_take h0)) (by simp)

/-- Moving along an axis. -/
theorem cell_set (dims iv : List Nat) (i j : Nat) (hl : iv.length = dims.length) (hi : i < dims.length) :
    cell dims (iv.set i j) = cell dims (iv.set i 0) + j * (dims.take i).prod := by
  induction dims generalizing iv i with
  | nil => simp at hi
  | cons n ns ih =>
    cases iv with
    | nil => simp at hl
    | cons a is =>
      cases i with
      | zero => simp [cell]; omega
      | succ i =>
        simp only [List.set_cons_succ, cell, List.take_succ_cons, List.prod_cons]
        rw [ih is i (by simpa using hl) (by simpa using hi)]; ring

theorem inRange_set {dims iv : List Nat} {i j : Nat} (hi : i < dims.length)
    (h : InRange dims (iv.set i 0)) (hj : j < val dims i) : InRange dims (iv.set i j) := by
  unfold InRange at *
  induction dims generalizing iv i with
  | nil => simp at hi
  | cons n ns ih =>
    cases iv with
    | nil => simp at h
    | cons a is =>
      cases i with
      | zero =>
        simp only [List.set_cons_zero] at h ⊢
        cases h with
        | cons h1 h2 => exact List.Forall₂.cons (by simpa using hj) h2
      | succ i =>
        simp only [List.set_cons_succ] at h ⊢
        cases h with
        | cons h1 h2 => exact List.Forall₂.cons h1 (ih (by simpa using hi) h2 (by simpa using hj))

theorem InRange.length {dims iv : List Nat} (h : InRange dims iv) : iv.length = dims.length :=
  List.Forall₂.length_eq h

theorem InRange.get {dims iv : List Nat} (h : InRange dims iv) (i : Nat) (hi : i < dims.length) :
    val iv i < val dims i := by
  have hl := h.length
  rw [val_lt (by omega), val_lt hi]
  exact List.Forall₂.get h (by omega) hi

theorem agreeOff_iff {i : Nat} {s t : List Nat} (hi : i < t.length) :
    AgreeOff i s t ↔ ∃ j, s = t.set i j := by
  constructor
  · rintro ⟨h1, h2⟩
    refine ⟨val s i, ?_⟩
    apply List.ext_getElem?
    intro k
    rw [List.getElem?_set]
    by_cases hk : i = k
    · subst hk
      rw [if_pos rfl, if_pos hi, getElem?_val (by omega)]
    · rw [if_neg hk]; exact h2 k (fun h => hk h.symm)
  · rintro ⟨j, rfl⟩
    refine ⟨by simp, fun k hk => ?_⟩
    rw [List.getElem?_set_ne (fun h => hk h.symm)]

/-- A histogram as the constructor and the operations leave it. -/
structure Hist.Ok {V K : Type} (h : Hist V K) : Prop where
  nonempty : h.binners ≠ []
  pos : ∀ n ∈ h.dims, 0 < n
  size : h.data.length = h.dims.prod
  strides : h.strides = stridesFrom 1 h.dims

variable {V K : Type}

theorem Hist.dims_length (h : Hist V K) : h.dims.length = h.binners.length := by simp [Hist.dims]

theorem binIndex_ok {h : Hist V K} (hk : h.Ok) {iv : List Nat} (hl : iv.length = h.dims.length) :
    h.binIndex iv = .ok (cell h.dims iv) := by
  unfold Hist.binIndex
  rw [if_neg (by rw [← h.dims_length]; simpa using hl), foldl_sum, hk.strides, dot_strides]
  simp

theorem stride_ok {h : Hist V K} (hk : h.Ok) {i : Nat} (hi : i < h.dims.length) :
    vget h.strides i = .ok (h.dims.take i).prod := by
  rw [hk.strides, vget_val (by rw [stridesFrom_length]; exact hi), stridesFrom_val _ _ _ hi, one_mul]

theorem dimSize_ok {h : Hist V K} (hk : h.Ok) {i : Nat} (hi : i < h.dims.length) :
    h.dimSize i = .ok (val h.dims i) := by
  unfold Hist.dimSize
  have hp := prod_pos hk.pos i
  rw [stride_ok hk hi, Res.bind_ok, if_neg (by omega)]
  by_cases hl : i + 1 = h.binners.length
  · rw [if_pos hl, hk.size]
    have : h.dims.prod = (h.dims.take (i + 1)).prod := by
      rw [List.take_of_length_le (by rw [h.dims_length]; omega)]
    rw [this, prod_take_succ _ _ hi, Nat.mul_div_cancel_left _ hp]
  · rw [if_neg hl, stride_ok hk (by rw [h.dims_length] at hi ⊢; omega), Res.bind_ok, prod_take_succ _ _ hi,
      Nat.mul_div_cancel_left _ hp]

/-- Writing along a line. -/
theorem write_line [Zero K] (d out : List K) (idx stride : Nat) (hs : 0 < stride)
    (hb : ∀ i, i < d.length → idx + i * stride < out.length) :
    ∃ w, loop (fun i o => do
        let x ← vget d i
        vset o (idx + i * stride) x) 0 d.length out = .ok w ∧ w.length = out.length ∧
      (∀ i, i < d.length → val w (idx + i * stride) = val d i) ∧
      ∀ p, (∀ i, i < d.length → p ≠ idx + i * stride) → val w p = val out p := by
  obtain ⟨w, h1, h2, h3, h4⟩ := loop_inv (body := fun i o => do
        let x ← vget d i
        vset o (idx + i * stride) x)
    (fun n w => w.length = out.length ∧
      (∀ i, i < n → val w (idx + i * stride) = val d i) ∧
      ∀ p, (∀ i, i < n → p ≠ idx + i * stride) → val w p = val out p)
    (lo := 0) (n := d.length) (s := out) ⟨rfl, by simp, by simp⟩ (by
      rintro n w hn1 hn2 ⟨h1, h2, h3⟩
      have hb' := hb n (by omega)
      refine ⟨w.set (idx + n * stride) (val d n), ?_, by simp [h1], ?_, ?_⟩
      · rw [vget_val (by omega), Res.bind_ok, vset_lt _ _ _ (by omega)]
      · intro i hi
        rw [val_set (by omega)]
        by_cases hin : i = n
        · subst hin; rw [if_pos rfl]
        · rw [if_neg (by
            intro h
            have : i * stride = n * stride := by omega
            exact hin (Nat.eq_of_mul_eq_mul_right hs this)), h2 i (by omega)]
      · intro p hp
        rw [val_set (by omega), if_neg (hp n (by omega)), h3 p (fun i hi => hp i (by omega))])
  rw [Nat.zero_add] at h3 h4
  exact ⟨w, h1, h2, h3, h4⟩

theorem new_ok [Zero K] (binners : List (Binner V)) (hne : binners ≠ []) (hpos : ∀ b ∈ binners, 0 < b.n) :
    ∃ h : Hist V K, Hist.new binners = .ok h ∧ h.Ok ∧ h.binners = binners ∧ ∀ p, val h.data p = 0 := by
  unfold Hist.new
  rw [if_neg hne]
  refine ⟨_, rfl, ⟨hne, ?_, by simp [Hist.dims], rfl⟩, rfl, by simp⟩
  intro n hn
  simp only [Hist.dims, List.mem_map] at hn
  obtain ⟨b, hb, rfl⟩ := hn
  exact hpos b hb

theorem findBins_some {border : Nat} {bs : List (Binner V)} {vs : List V} {iv : List Nat}
    (hl : vs.length = bs.length) (h : findBins border bs vs = some iv) :
    InRange (bs.map Binner.n) iv := by
  induction bs generalizing vs iv with
  | nil =>
    simp [findBins] at h
    subst h; exact List.Forall₂.nil
  | cons b bs ih =>
    cases vs with
    | nil => simp at hl
    | cons v vs =>
      simp only [findBins] at h
      by_cases hc : b.index v < border ∨ (b.n : Int) - border ≤ b.index v
      · rw [if_pos hc] at h; simp at h
      · rw [if_neg hc, Option.map_eq_some_iff] at h
        obtain ⟨l, h1, rfl⟩ := h
        exact List.Forall₂.cons (by omega) (ih (by simpa using hl) h1)

end Verif.HistND
