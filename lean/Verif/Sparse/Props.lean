import Verif.Sparse.Lemmas
import Mathlib.Algebra.Group.Int.Defs
import Mathlib.Algebra.Group.Basic
/-
Property theorems C01 and C02 (sparse vector).
-/
namespace Verif.Sparse

variable {T : Type} [DecidableEq T]

/-- C01.  After any history of `push_back`, `fill_from_vect`, `clear`,
`clear_data`, `free_memory` and growing `resize`, started from a vector of `n`
null elements, the sparse vector represents (same size, same elements, entries
exactly the non-null elements in index order) the plain vector with the same
history. -/
theorem C01_history_refines_dense (n : Nat) (null : T) (ops : List (Op T))
    (h : NoShrink null (List.replicate n null) ops) :
    Represents (run (SV.mkNull n null) ops) (denseRun null (List.replicate n null) ops) := by
  have h0 : Rep (SV.mkNull n null) (List.replicate n null) := by
    simp [Rep, SV.mkNull, fillLoop_replicate]
  exact (rep_run h0 ops h).represents

example : NoShrink (0 : Int) (List.replicate 2 0)
    [.pushBack 5, .pushBack 0, .fillFromVect [0, 1, 0, 2], .resize 6, .pushBack 3] := by
  simp [NoShrink, denseStep, vresize]
example : run (SV.mkNull 2 (0 : Int))
    [.pushBack 5, .pushBack 0, .fillFromVect [0, 1, 0, 2], .resize 6, .pushBack 3] =
    ⟨7, 0, [(1, 1), (3, 2), (6, 3)]⟩ := by decide

/-- C01.  Constructing from a vector always succeeds and represents the vector. -/
theorem C01_construct (v : List T) (null : T) :
    ∃ s, SV.ofVect v null = .ok s ∧ Represents s v ∧ s.null = null := by
  refine ⟨⟨v.length, null, fillLoop null 0 v⟩, by simp [SV.ofVect, SV.mkNull, SV.fillFromVect],
    Rep.represents ⟨rfl, rfl⟩, rfl⟩

/-- C01.  Filling from a vector of another size is rejected. -/
theorem C01_fill_wrong_size_throws (s : SV T) (v : List T) (h : s.size ≠ v.length) :
    s.fillFromVect v = .throws := by simp [SV.fillFromVect, h]

example : (SV.mkNull 2 (0 : Int)).fillFromVect [1] = .throws := by decide

/-- C01.  Expanding into an empty vector gives back the plain vector, when null is
the value a fresh vector holds. -/
theorem C01_expand_fresh (s : SV T) (v : List T) (h : Represents s v) :
    s.fillVect s.null [] = .ok v := by
  obtain ⟨h1, h2⟩ := h.rep
  have := assignAll_fillLoop s.null v (List.replicate v.length s.null) [] 0 0 (by simp) (by simp)
  simp only [List.nil_append] at this
  simp [SV.fillVect, vresize, h1, h2, this, overlay_replicate]

example : Represents (⟨3, 0, [(1, 7)]⟩ : SV Int) [0, 7, 0] ∧
    (⟨3, 0, [(1, 7)]⟩ : SV Int).fillVect 0 [] = .ok [0, 7, 0] :=
  ⟨Rep.represents ⟨rfl, by decide⟩, by decide⟩

/-- C01 (limit of the expansion).  `fill_vect` does not overwrite: into a vector
that already has the right size it only writes the non-null elements, so old
elements survive wherever the sparse vector is null. -/
theorem C01_expand_keeps_old_where_null (zero : T) (s : SV T) (v w : List T)
    (h : Represents s v) (hw : w.length = v.length) :
    ∃ r, s.fillVect zero w = .ok r ∧ r.length = v.length ∧
      ∀ i (hi : i < v.length) (hr : i < r.length),
        r[i] = if v[i] ≠ s.null then v[i] else w[i] := by
  obtain ⟨h1, h2⟩ := h.rep
  have := assignAll_fillLoop s.null v w [] 0 0 (by simp) hw.symm
  simp only [List.nil_append] at this
  refine ⟨overlay s.null v w, ?_, by simp [overlay, hw], ?_⟩
  · simp [SV.fillVect, vresize, h1, h2, ← hw] at this ⊢; rw [this]
  · intro i hi hr; simp [overlay]

/-- C01, negation for a re-used output vector: `fill_vect` into a non-empty vector
does not give the represented vector. -/
theorem C01_expand_reused_violates :
    ∃ (s : SV Int) (v w : List Int), Represents s v ∧ s.fillVect 0 w ≠ .ok v :=
  ⟨⟨2, 0, [(1, 7)]⟩, [0, 7], [4, 4], Rep.represents ⟨rfl, by decide⟩, by decide⟩

/-- C01, negation for a shrinking `resize`: it never gives the requested size
(SparseVector.h:288-296 forgets to update `m_size`). -/
theorem C01_shrink_violates {T : Type} (s : SV T) (n : Nat) (h : n < s.size) :
    (s.resize n).size = s.size ∧ (s.resize n).size ≠ n := by
  have : ¬ s.size ≤ n := by omega
  simp [SV.resize, this]; omega

example : (SV.mkNull 5 (0 : Int)).size = 5 ∧ ((SV.mkNull 5 (0 : Int)).resize 2).size = 5 := by
  decide

/-- C01, what a shrinking `resize` does do: the elements read like those of the
shortened vector padded with nulls to the *old* size. -/
theorem C01_shrink_reads_partial (s : SV T) (v : List T) (n : Nat) (h : Represents s v)
    (hn : n < v.length) :
    Represents (s.resize n) (v.take n ++ List.replicate (v.length - n) s.null) := by
  obtain ⟨h1, h2⟩ := h.rep
  have hns : ¬ s.size ≤ n := by omega
  have hnull : (s.resize n).null = s.null := by unfold SV.resize; split <;> rfl
  apply Rep.represents
  refine ⟨by rw [SV.resize, if_neg hns]; simp [h1]; omega, ?_⟩
  rw [hnull, fillLoop_append, fillLoop_replicate, List.append_nil]
  simp only [SV.resize, hns, if_false, lowerBound_eq h2]
  have hs : s.data = fillLoop s.null 0 (v.take n) ++ fillLoop s.null n (v.drop n) := by
    have hl : (v.take n).length = n := by simp; omega
    have hfa := fillLoop_append s.null (v.take n) (v.drop n) 0
    rw [List.take_append_drop, hl, Nat.zero_add] at hfa
    rw [h2, hfa]
  rw [hs]; simp

/-- C01.  `swap` exchanges the represented vectors. -/
theorem C01_swap (s o : SV T) (v w : List T) (hs : Represents s v) (ho : Represents o w) :
    Represents (s.swap o).1 w ∧ Represents (s.swap o).2 v ∧
      (s.swap o).1.null = o.null ∧ (s.swap o).2.null = s.null :=
  ⟨ho, hs, rfl, rfl⟩

/-- C01.  Adding to a vector of the same size adds element by element and never
leaves the vector (null is zero). -/
theorem C01_add_to_vect {T : Type} [DecidableEq T] [AddMonoid T] (s : SV T) (v w : List T)
    (h : Represents s v) (h0 : s.null = 0) (hw : w.length = v.length) :
    s.addToVect w = .ok (List.zipWith (fun y x => y + x) w v) := by
  obtain ⟨h1, h2⟩ := h.rep
  have := addAll_fillLoop s.null v w [] hw.symm
  simp only [List.nil_append, List.length_nil] at this
  rw [SV.addToVect, h2, this]
  congr 1
  rw [List.zipWith_comm]
  congr 1
  funext y x
  by_cases hx : x = 0 <;> simp [h0, hx]

/-- C01.  Subtracting what was added restores the vector. -/
theorem C01_subtract_after_add {T : Type} [DecidableEq T] [AddGroup T] (s : SV T)
    (v w : List T) (h : Represents s v) (h0 : s.null = 0) (hw : w.length = v.length) :
    (s.addToVect w >>= fun u => s.subtractFromVect u) = .ok w := by
  rw [C01_add_to_vect s v w h h0 hw, Res.bind_ok]
  obtain ⟨h1, h2⟩ := h.rep
  have := subAll_fillLoop s.null v (List.zipWith (fun y x => y + x) w v) [] (by simp [hw])
  simp only [List.nil_append, List.length_nil] at this
  rw [SV.subtractFromVect, h2, this]
  congr 1
  apply List.ext_getElem
  · simp [hw]
  · intro i hi hi'
    simp only [List.getElem_zipWith]
    split
    · simp
    · rename_i hx; simp only [ne_eq, not_not] at hx; rw [hx]; simp [h0]

example : (⟨3, 0, [(1, 7)]⟩ : SV Int).addToVect [1, 2, 3] = .ok [1, 9, 3] := by decide

/-- C01.  The key and value vectors written out are the positions and values of the
non-null elements, and reading them back in restores the vector. -/
theorem C01_key_value_roundtrip (s t : SV T) (v : List T) (h : Represents s v)
    (ht : t.size = s.size) (htn : t.null = s.null) :
    (t.fillFromKeyAndValue s.fillKeyAndValue.1 s.fillKeyAndValue.2).2 = .ok () ∧
    Represents (t.fillFromKeyAndValue s.fillKeyAndValue.1 s.fillKeyAndValue.2).1 v := by
  obtain ⟨h1, h2⟩ := h.rep
  have hz : (s.data.map Prod.fst).zip (s.data.map Prod.snd) = s.data := by
    simp [List.zip_map']
  constructor
  · simp [SV.fillFromKeyAndValue, SV.fillKeyAndValue]
  · apply Rep.represents
    simp only [SV.fillFromKeyAndValue, SV.fillKeyAndValue, List.length_map, ne_eq,
      not_true_eq_false, if_false, hz]
    exact ⟨ht.trans h1, by simp [htn, h2]⟩

/-- C02, exact behaviour of the ranged extraction: it yields elements
`first .. last-1` unless there is a non-null element *at* `last`, in which case it
writes outside the output vector. -/
theorem C02_range_extract_exact (s : SV T) (v : List T) (h : Represents s v)
    (first last : Nat) (hfl : first ≤ last) (hl : last ≤ v.length) :
    s.fillVectRange s.null [] first last =
      if s.get last = s.null then .ok ((v.drop first).take (last - first)) else .ub := by
  obtain ⟨h1, h2⟩ := h.rep
  have hnl : ¬ last < first := by omega
  simp only [SV.fillVectRange, hnl, if_false, rangeLU_eq h2 _ _ hfl, vresize, List.take_nil,
    List.nil_append, List.length_nil, Nat.sub_zero, get_eq_of_data h2]
  set_option linter.unusedSimpArgs false in
  have hbase : ((v.drop first).take (last - first)).length = last - first := by simp; omega
  have hok := assignAll_fillLoop s.null ((v.drop first).take (last - first))
    (List.replicate (last - first) s.null) [] first first (by simp) (by simp; omega)
  simp only [List.nil_append] at hok
  have hov := overlay_replicate s.null ((v.drop first).take (last - first))
  rw [hbase] at hov
  rw [hov] at hok
  rcases Nat.lt_or_ge last v.length with hlt | hge
  · have htk : (v.drop first).take (last + 1 - first) =
        (v.drop first).take (last - first) ++ [v[last]] := by
      rw [show last + 1 - first = (last - first) + 1 by omega, List.take_add_one]
      congr 1
      simp [List.getElem?_drop, show first + (last - first) = last by omega, hlt]
    rw [htk]
    by_cases hx : v[last] = s.null
    · simp only [hlt, List.getElem?_eq_getElem, Option.getD_some, hx, if_true]
      rw [fillLoop_append]
      simp only [fillLoop, ne_eq, not_true_eq_false, if_false, List.append_nil]
      exact hok
    · simp only [hlt, List.getElem?_eq_getElem, Option.getD_some, hx, if_false]
      exact assignAll_ub _ _ _ _ _ _ hx (Nat.le_refl _) (by simp; omega)
  · have htk : (v.drop first).take (last + 1 - first) = (v.drop first).take (last - first) := by
      rw [List.take_of_length_le (by simp; omega), List.take_of_length_le (by simp; omega)]
    rw [htk, hok]
    simp [List.getElem?_eq_none hge]

/-- C02 (partial): the half-open range is extracted exactly when the element at
`last` is null or outside the vector.  Missing: the case of a non-null element at
`last`, refuted below. -/
theorem C02_range_extract_partial (s : SV T) (v : List T) (h : Represents s v)
    (first last : Nat) (hfl : first ≤ last) (hl : last ≤ v.length)
    (hnull : s.get last = s.null) :
    s.fillVectRange s.null [] first last = .ok ((v.drop first).take (last - first)) := by
  rw [C02_range_extract_exact s v h first last hfl hl, if_pos hnull]

example : (⟨4, 0, [(1, 7), (2, 8)]⟩ : SV Int).fillVectRange 0 [] 1 3 = .ok [7, 8] := by decide

/-- C02, negation: extracting `[0,1)` of the vector `[0,7]` writes out of range. -/
theorem C02_range_extract_violates :
    ∃ (s : SV Int) (v : List Int) (first last : Nat), Represents s v ∧ first ≤ last ∧
      last ≤ v.length ∧ s.fillVectRange 0 [] first last = .ub :=
  ⟨⟨2, 0, [(1, 7)]⟩, [0, 7], 0, 1, Rep.represents ⟨rfl, by decide⟩, by decide, by decide,
    by decide⟩

/-- C02, negation for the ranged `fill_key_and_value`: whenever `first > 0` and any
element is selected, the index `idx-first` underflows. -/
theorem C02_range_key_value_violates {T : Type} (s : SV T) (first last : Nat) (hf : 0 < first)
    (hne : s.rangeLU first last ≠ []) :
    s.fillKeyAndValueRange first last = .ub := by
  unfold SV.fillKeyAndValueRange
  cases h : s.rangeLU first last with
  | nil => exact absurd h hne
  | cons p ps => simp [keyValueLoop, hf]

example : (⟨4, 0, [(1, 7), (2, 8)]⟩ : SV Int).fillKeyAndValueRange 1 3 = .ub := by decide

/-- C02, ranged `fill_key_and_value` from the start of the vector (partial, only
`first = 0`): it returns the positions and values of the non-null elements of
`[0,last]` — the upper limit is inclusive here too. -/
theorem C02_range_key_value_partial (s : SV T) (v : List T) (h : Represents s v) (last : Nat) :
    s.fillKeyAndValueRange 0 last =
      .ok ((nonNull s.null (v.take (last + 1))).map Prod.fst,
        (nonNull s.null (v.take (last + 1))).map Prod.snd) := by
  obtain ⟨h1, h2⟩ := h.rep
  have hr := rangeLU_eq h2 0 last (Nat.zero_le _)
  simp only [List.drop_zero, Nat.sub_zero] at hr
  have := keyValueLoop_zero (s.rangeLU 0 last) [] (List.replicate (s.rangeLU 0 last).length 0) []
    (List.replicate (s.rangeLU 0 last).length s.null) (by simp) (by simp) rfl
  simp only [List.length_nil, List.nil_append] at this
  rw [hr, fillLoop_eq_nonNull] at this
  simp only [SV.fillKeyAndValueRange, hr, fillLoop_eq_nonNull, this]

/-- C02, ranged `fill_map`: the non-null elements of `[first,last]` (the upper limit is
inclusive here too) under their positions relative to `first`. -/
theorem C02_range_map_exact (s : SV T) (v : List T) (h : Represents s v) (first last : Nat)
    (hfl : first ≤ last) :
    s.fillMapRange first last = nonNull s.null ((v.drop first).take (last + 1 - first)) := by
  obtain ⟨h1, h2⟩ := h.rep
  unfold SV.fillMapRange
  rw [rangeLU_eq h2 _ _ hfl, ← fillLoop_eq_nonNull]
  have : ∀ (w : List T) (i : Nat), (fillLoop s.null (first + i) w).map (fun p => (p.1 - first, p.2)) =
      fillLoop s.null i w := by
    intro w
    induction w with
    | nil => intro i; rfl
    | cons x w ih =>
      intro i
      have e : first + i + 1 = first + (i + 1) := by omega
      simp only [fillLoop]
      split
      · rw [List.map_cons, e, ih]
        congr 1
        simp
      · rw [e, ih]
  exact this _ 0

example : (⟨5, 0, [(1, 7), (2, 8), (4, 9)]⟩ : SV Int).fillMapRange 1 3 = [(0, 7), (1, 8)] := by decide

/-- C01: walking the stored entries (`nth_index`, `nth_element`) visits exactly the non-null
elements in index order, then reports -1 and the null element. -/
theorem C01_nth_entries (s : SV T) (v : List T) (h : Represents s v) (n : Nat) :
    (∀ (hn : n < (nonNull s.null v).length),
      s.nthIndex n = ((nonNull s.null v)[n].1 : Int) ∧ s.nthElement n = (nonNull s.null v)[n].2) ∧
    ((nonNull s.null v).length ≤ n → s.nthIndex n = -1 ∧ s.nthElement n = s.null) := by
  unfold SV.nthIndex SV.nthElement
  rw [h.entries]
  constructor
  · intro hn; rw [List.getElem?_eq_getElem hn]; exact ⟨rfl, rfl⟩
  · intro hn; rw [List.getElem?_eq_none hn]; exact ⟨rfl, rfl⟩

example : (⟨5, 0, [(1, 7), (4, 9)]⟩ : SV Int).nthIndex 1 = 4 := by decide

end Verif.Sparse
