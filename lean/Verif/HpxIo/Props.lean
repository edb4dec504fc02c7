import Mathlib.Tactic.Ring
import Verif.HpxIo.Model
import Verif.HpxIo.Spec
import Verif.Energy.Lemmas
set_option linter.unusedVariables false
set_option linter.unusedSimpArgs false
/-
C160: HEALPix counts maps in files.
-/
namespace Verif.HpxIo

variable {β : Type}

theorem fill_ok : ∀ (pre mid post vs : List β), vs.length = mid.length → fill pre.length vs (pre ++ mid ++ post) = .ok (pre ++ vs ++ post)
  | pre, mid, post, [], h => by
    have : mid = [] := List.length_eq_zero_iff.1 h.symm
    subst this
    rfl
  | pre, [], post, v :: vs, h => by simp at h
  | pre, m :: mid, post, v :: vs, h => by
    have e1 : vset (pre ++ (m :: mid) ++ post) pre.length v = .ok ((pre ++ [v]) ++ mid ++ post) := by
      rw [vset_lt _ _ _ (by simp)]
      congr 1
      simp
    have ih := fill_ok (pre ++ [v]) mid post vs (by simpa using h)
    simp only [fill, e1, Res.bind_ok]
    rw [show pre.length + 1 = (pre ++ [v]).length by simp, ih]
    simp

/-- The columns fill the energy bins from the first on. -/
theorem readCols_ok (zero : β) (nPix : Nat) : ∀ (cs : List (List β)) (pre : List (List β)) (nE : Nat), (∀ l ∈ pre, l.length = nPix) →
    (∀ l ∈ cs, l.length = nPix) → pre.length + cs.length ≤ nE →
    readCols pre.length cs ⟨nPix, nE, pre.flatten ++ List.replicate (nPix * (nE - pre.length)) zero⟩ =
      .ok ⟨nPix, nE, (pre ++ cs).flatten ++ List.replicate (nPix * (nE - (pre.length + cs.length))) zero⟩
  | [], pre, nE, _, _, _ => by simp [readCols]
  | c :: cs, pre, nE, hp, hc, hn => by
    have hcl : c.length = nPix := hc c (List.mem_cons_self ..)
    have hlen : pre.flatten.length = nPix * pre.length := by
      rw [List.length_flatten]
      clear hn
      induction pre with
      | nil => simp
      | cons a pre ih =>
        simp only [List.map_cons, List.sum_cons, List.length_cons]
        rw [ih fun l hl => hp l (List.mem_cons_of_mem _ hl), hp a (List.mem_cons_self ..)]
        ring
    simp only [List.length_cons] at hn
    have hsplit : List.replicate (nPix * (nE - pre.length)) zero = List.replicate nPix zero ++ List.replicate (nPix * (nE - (pre.length + 1))) zero := by
      rw [← List.replicate_add]
      congr 1
      have : nE - pre.length = (nE - (pre.length + 1)) + 1 := by omega
      rw [this]; ring
    have hs : setSlice ⟨nPix, nE, pre.flatten ++ List.replicate (nPix * (nE - pre.length)) zero⟩ pre.length c =
        .ok ⟨nPix, nE, (pre ++ [c]).flatten ++ List.replicate (nPix * (nE - (pre ++ [c]).length)) zero⟩ := by
      unfold setSlice
      rw [if_neg (by simpa using hcl)]
      have := fill_ok pre.flatten (List.replicate nPix zero) (List.replicate (nPix * (nE - (pre.length + 1))) zero) c (by simp [hcl])
      simp only [hsplit, Nat.mul_zero, Nat.zero_add, ← hlen]
      rw [← List.append_assoc, this]
      simp
    have ih := readCols_ok zero nPix cs (pre ++ [c]) nE (by
      intro l hl
      rcases List.mem_append.1 hl with h | h
      · exact hp l h
      · rw [List.mem_singleton.1 h]; exact hcl) (fun l hl => hc l (List.mem_cons_of_mem _ hl)) (by simp; omega)
    unfold readCols
    rw [hs]
    simp only [Res.bind_ok]
    rw [show pre.length + 1 = (pre ++ [c]).length by simp, ih]
    congr 2
    · simp
      congr 1
      omega

/-- **C160 (reading).** From a table whose columns have as many rows as there are pixels, with one
column of counts for each energy bin, the counts of each energy bin are those of the column at its place
among the columns of counts. -/
theorem C160_read (zero : β) (nPix nE : Nat) (t : Table β) (p : Planes β) (hp : Shape nPix nE p)
    (hc : (t.cols.filter fun c => isData c.1).map (·.2) = p) : read zero nPix nE t = .ok ⟨nPix, nE, p.flatten⟩ := by
  have := readCols_ok zero nPix p [] nE (by simp) hp.2 (by simp [hp.1])
  unfold read
  rw [hc]
  simpa [hp.1] using this

theorem isData_iff (n : Name) : isData n = true ↔ IsChannel n := by
  unfold isData IsChannel
  rw [List.isPrefixOf_iff_prefix]
  exact ⟨fun ⟨r, h⟩ => ⟨r, h.symm⟩, fun ⟨r, h⟩ => ⟨r, h.symm⟩⟩

theorem channel_isData (e : Nat) : isData (channelName e) = true := by
  rw [isData_iff]
  unfold channelName IsChannel
  exact ⟨((Nat.repr (e + 1)).toList).map Char.toLower, by rw [List.map_append]; rfl⟩

/-- A table with two energy bins of three pixels. -/
def toyT : Table Nat := ⟨3, [(['P', 'i', 'x'], [7, 8, 9]), (channelName 0, [1, 2, 3]), (channelName 1, [4, 5, 6])]⟩

theorem toyT_cols : (toyT.cols.filter fun c => isData c.1).map (·.2) = [[1, 2, 3], [4, 5, 6]] := by
  have h1 : isData ['P', 'i', 'x'] = false := by decide
  simp [toyT, List.filter_cons, h1, channel_isData]

example : read 0 3 2 toyT = .ok ⟨3, 2, [1, 2, 3, 4, 5, 6]⟩ :=
  C160_read 0 3 2 toyT [[1, 2, 3], [4, 5, 6]] ⟨rfl, by simp⟩ toyT_cols

/-- The slice of an energy bin. -/
theorem getSlice_ok {nPix nE : Nat} {p : Planes β} (hp : Shape nPix nE p) {e : Nat} {l : List β} (he : p[e]? = some l) :
    getSlice ⟨nPix, nE, p.flatten⟩ e = .ok l := by
  have hl : l.length = nPix := hp.2 l (List.mem_of_getElem? he)
  obtain ⟨hlt, hel⟩ := List.getElem?_eq_some_iff.1 he
  have hsplit : p = p.take e ++ l :: p.drop (e + 1) := by
    rw [← hel]; simp
  have hpre : (p.take e).flatten.length = nPix * e := by
    have : ∀ q : List (List β), (∀ l ∈ q, l.length = nPix) → q.flatten.length = nPix * q.length := by
      intro q
      induction q with
      | nil => intro _; simp
      | cons a q ih =>
        intro hq
        simp only [List.flatten_cons, List.length_append, List.length_cons]
        rw [ih fun l hl => hq l (List.mem_cons_of_mem _ hl), hq a (List.mem_cons_self ..)]
        ring
    rw [this _ fun l hl => hp.2 l (List.mem_of_mem_take hl), List.length_take]
    congr 1
    omega
  have hget : ∀ i (hi : i < nPix), vget p.flatten (1 * 0 + nPix * e + i) = .ok (l[i]'(by omega)) := by
    intro i hi
    rw [vget_eq_ok]
    conv_lhs => rw [hsplit]
    rw [List.flatten_append, List.getElem?_append_right (by rw [hpre]; omega), hpre]
    simp only [List.flatten_cons]
    rw [List.getElem?_append_left (by omega)]
    rw [show 1 * 0 + nPix * e + i - nPix * e = i by omega, List.getElem?_eq_getElem]
  unfold getSlice
  have key : ∀ k, k ≤ nPix → (List.range k).mapM (fun i : Nat => vget p.flatten (1 * 0 + nPix * e + i)) = .ok (l.take k) := by
    intro k
    induction k with
    | zero => intro _; rfl
    | succ k ih =>
      intro hk
      rw [List.range_succ, List.mapM_append, ih (by omega)]
      have e2 : [k].mapM (fun i : Nat => vget p.flatten (1 * 0 + nPix * e + i)) = .ok [l[k]'(by omega)] := by
        rw [List.mapM_cons, hget k (by omega)]
        rfl
      rw [e2]
      simp only [Res.bind_ok, Res.pure_eq]
      congr 1
      rw [List.take_add_one, List.getElem?_eq_getElem (by omega)]
      rfl
  have := key nPix (Nat.le_refl _)
  rw [← hl, List.take_length] at this
  simpa [hl] using this

/-- What is written: a column for each energy bin. -/
theorem write_cols {nPix nE : Nat} {p : Planes β} (hp : Shape nPix nE p) :
    ((List.range nE).mapM fun e : Nat => do
      let s ← getSlice ⟨nPix, nE, p.flatten⟩ e
      .ok (channelName e, s)) = .ok (p.mapIdx fun e l => (channelName e, l)) := by
  have key : ∀ k, k ≤ nE → ((List.range k).mapM fun e : Nat => do
      let s ← getSlice ⟨nPix, nE, p.flatten⟩ e
      .ok (channelName e, s)) = .ok ((p.take k).mapIdx fun e l => (channelName e, l)) := by
    intro k
    induction k with
    | zero => intro _; simp
    | succ k ih =>
      intro hk
      have hkl : k < p.length := by rw [hp.1]; omega
      rw [List.range_succ, List.mapM_append, ih (by omega)]
      have e2 : ([k].mapM fun e : Nat => do
          let s ← getSlice ⟨nPix, nE, p.flatten⟩ e
          .ok (channelName e, s)) = .ok [(channelName k, p[k])] := by
        simp [List.mapM_cons, getSlice_ok hp (List.getElem?_eq_getElem hkl)]
      rw [e2]
      simp only [Res.bind_ok, Res.pure_eq]
      congr 1
      rw [List.take_add_one, List.getElem?_eq_getElem hkl]
      simp only [Option.toList_some, List.mapIdx_append, List.mapIdx_cons, List.mapIdx_nil]
      rw [List.length_take, Nat.min_eq_left (by omega)]
      simp
  have := key nE (Nat.le_refl _)
  rwa [List.take_of_length_le (by rw [hp.1])] at this

theorem mapIdx_filter : ∀ (p : Planes β), ((p.mapIdx fun e l => (channelName e, l)).filter fun c => isData c.1).map (·.2) = p := by
  intro p
  have h : (p.mapIdx fun e l => (channelName e, l)).filter (fun c => isData c.1) = p.mapIdx fun e l => (channelName e, l) := by
    refine List.filter_eq_self.2 fun c hc => ?_
    obtain ⟨i, hi, rfl⟩ := List.mem_mapIdx.1 hc
    exact channel_isData i
  rw [h]
  apply List.ext_getElem?
  intro i
  simp [List.getElem?_mapIdx, Function.comp_def]

/-- **C160 (round trip).** A counts map that is written and read again has the same counts, whether or not
it covers the sky. -/
theorem C160_roundtrip (zero : β) (nPix nE : Nat) (p : Planes β) (hp : Shape nPix nE p) (pix : Option (List β)) :
    ∃ t, write pix ⟨nPix, nE, p.flatten⟩ = .ok t ∧ t.nrow = nPix ∧ read zero nPix nE t = .ok ⟨nPix, nE, p.flatten⟩ := by
  unfold write
  simp only [write_cols hp, Res.bind_ok]
  cases pix with
  | none => exact ⟨_, rfl, rfl, C160_read zero nPix nE _ p hp (mapIdx_filter p)⟩
  | some q =>
    refine ⟨_, rfl, rfl, C160_read zero nPix nE _ p hp ?_⟩
    have h1 : isData ['P', 'I', 'X'] = false := by decide
    simp only [List.filter_cons, h1, Bool.false_eq_true, if_false]
    exact mapIdx_filter p

example : ∃ t, write (some [7, 8, 9]) ⟨3, 2, [1, 2, 3, 4, 5, 6]⟩ = .ok t ∧ t.nrow = 3 ∧ read 0 3 2 t = .ok ⟨3, 2, [1, 2, 3, 4, 5, 6]⟩ :=
  C160_roundtrip 0 3 2 [[1, 2, 3], [4, 5, 6]] ⟨rfl, by simp⟩ _

/-- **C160 (rows).** A table with a column of counts that has not as many rows as there are pixels is
refused. -/
theorem C160_rows (zero : β) (nPix nE : Nat) (t : Table β) (hr : t.nrow ≠ nPix) (hc : ∀ c ∈ t.cols, c.2.length = t.nrow)
    (hd : ∃ c ∈ t.cols, IsChannel c.1) : read zero nPix nE t = .throws := by
  unfold read
  cases h : t.cols.filter fun c => isData c.1 with
  | nil =>
    obtain ⟨c, hc1, hc2⟩ := hd
    have : c ∈ t.cols.filter fun c => isData c.1 := List.mem_filter.2 ⟨hc1, (isData_iff _).2 hc2⟩
    rw [h] at this; cases this
  | cons c cs =>
    have hm : c ∈ t.cols := (List.mem_filter.1 (by rw [h]; exact List.mem_cons_self .. : c ∈ t.cols.filter fun c => isData c.1)).1
    simp only [List.map_cons, readCols, setSlice]
    rw [if_pos (by rw [hc c hm]; exact hr)]
    rfl

example : read 0 4 2 toyT = .throws :=
  C160_rows 0 4 2 toyT (by simp [toyT]) (by simp [toyT]) ⟨(channelName 0, [1, 2, 3]), by simp [toyT], (isData_iff _).1 (channel_isData 0)⟩

/-- **C160 (violation).** A table with fewer columns of counts than there are energy bins is read without
an error: there are no counts in the other energy bins. -/
theorem C160_fewer_violates (zero : β) (nPix nE : Nat) (t : Table β) (p : Planes β) (hp : Shape nPix p.length p) (hn : p.length < nE)
    (hc : (t.cols.filter fun c => isData c.1).map (·.2) = p) :
    read zero nPix nE t = .ok ⟨nPix, nE, (p ++ List.replicate (nE - p.length) (List.replicate nPix zero)).flatten⟩ := by
  have := readCols_ok zero nPix p [] nE (by simp) hp.2 (by simp; omega)
  unfold read
  rw [hc]
  simp only [List.length_nil, List.flatten_nil, List.nil_append, Nat.sub_zero, Nat.zero_add] at this
  rw [this, List.flatten_append]
  congr 3
  rw [List.flatten_replicate_replicate, Nat.mul_comm]

example : read 0 3 3 toyT = .ok ⟨3, 3, [1, 2, 3, 4, 5, 6, 0, 0, 0]⟩ :=
  C160_fewer_violates 0 3 3 toyT [[1, 2, 3], [4, 5, 6]] ⟨rfl, by simp⟩ (by simp) toyT_cols

/-- **C160 (violation).** A table with more columns of counts than there are energy bins makes the reading
write outside of the counts. -/
theorem C160_more_violates (zero : β) (nPix nE : Nat) (t : Table β) (p : Planes β) (hp : Shape nPix p.length p) (hn : nE < p.length)
    (h0 : 0 < nPix) (hc : (t.cols.filter fun c => isData c.1).map (·.2) = p) : read zero nPix nE t = .ub := by
  have hsplit : p = p.take nE ++ p[nE] :: p.drop (nE + 1) := by simp
  have happ : ∀ (a b : List (List β)) (e : Nat) (h : Hist β), readCols e (a ++ b) h = readCols e a h >>= readCols (e + a.length) b := by
    intro a
    induction a with
    | nil => intro b e h; simp [readCols]
    | cons x a ih =>
      intro b e h
      simp only [List.cons_append, readCols, ih]
      cases setSlice h e x with
      | ok h' =>
        simp only [Res.bind_ok, List.length_cons]
        rw [show e + 1 + a.length = e + (a.length + 1) by omega]
      | throws => rfl
      | ub => rfl
  have h1 := readCols_ok zero nPix (p.take nE) [] nE (by simp) (fun l hl => hp.2 l (List.mem_of_mem_take hl)) (by simp)
  have hl : (p.take nE).length = nE := by simp; omega
  simp only [List.length_nil, List.flatten_nil, List.nil_append, Nat.sub_zero, Nat.zero_add, hl, Nat.sub_self, Nat.mul_zero,
    List.replicate_zero, List.append_nil] at h1
  have hlen : (p.take nE).flatten.length = nPix * nE := by
    have : ∀ q : List (List β), (∀ l ∈ q, l.length = nPix) → q.flatten.length = nPix * q.length := by
      intro q
      induction q with
      | nil => intro _; simp
      | cons a q ih =>
        intro hq
        simp only [List.flatten_cons, List.length_append, List.length_cons]
        rw [ih fun l hl => hq l (List.mem_cons_of_mem _ hl), hq a (List.mem_cons_self ..)]
        ring
    rw [this _ fun l hl => hp.2 l (List.mem_of_mem_take hl), hl]
  have hx : (p[nE]).length = nPix := hp.2 _ (List.getElem_mem _)
  unfold read
  rw [hc, hsplit, happ, h1]
  simp only [Res.bind_ok, Nat.zero_add, hl, readCols, setSlice]
  rw [if_neg (by simpa using hx)]
  cases hpe : p[nE] with
  | nil => rw [hpe] at hx; simp at hx; omega
  | cons v vs =>
    simp only [fill, Nat.mul_zero, Nat.zero_add]
    rw [vset_ge _ _ _ (by omega)]
    rfl

example : read 0 3 1 toyT = .ub := C160_more_violates 0 3 1 toyT [[1, 2, 3], [4, 5, 6]] ⟨rfl, by simp⟩ (by simp) (by omega) toyT_cols

/-- **C160 (violation).** The numbers in the names of the columns have no effect: if the columns of a map
are in another order, the counts are of other energies.  Tables with the same columns of counts in the same
order are read in the same way, whatever their numbers are. -/
theorem C160_order_violates (zero : β) (nPix nE : Nat) (t u : Table β)
    (h : (t.cols.filter fun c => isData c.1).map (·.2) = (u.cols.filter fun c => isData c.1).map (·.2)) :
    read zero nPix nE t = read zero nPix nE u := by
  unfold read
  rw [h]

example : read 0 3 2 ⟨3, [(channelName 1, [4, 5, 6]), (channelName 0, [1, 2, 3])]⟩ = .ok ⟨3, 2, [4, 5, 6, 1, 2, 3]⟩ := by
  rw [C160_order_violates 0 3 2 _ ⟨3, [(channelName 0, [4, 5, 6]), (channelName 1, [1, 2, 3])]⟩ (by simp [List.filter_cons, channel_isData])]
  exact C160_read 0 3 2 _ [[4, 5, 6], [1, 2, 3]] ⟨rfl, by simp⟩ (by simp [List.filter_cons, channel_isData])

/-- **C160 (axes, partial).** The dimensions of a counts map with three axes are those of its axes, and so
are those of a test source; other axes are refused. -/
theorem C160_axes_partial (nx ny ne : Nat) :
    imageDimension [nx, ny, ne] 0 = .ok nx ∧ imageDimension [nx, ny, ne] 1 = .ok ny ∧ imageDimension [nx, ny, ne] 2 = .ok ne ∧
      testAxes [nx, ny, ne] = .ok (nx, ny, ne) ∧ (∀ dims, ∀ i : Int, i < 0 ∨ 2 < i → imageDimension dims i = .throws) ∧
      imageDimension [nx, ne] 0 = .ok nx ∧ imageDimension [nx, ne] 1 = .ok ne := by
  refine ⟨rfl, rfl, rfl, rfl, fun dims i hi => ?_, rfl, rfl⟩
  unfold imageDimension
  rw [if_pos hi]

example : testAxes [4, 5, 6] = .ok (4, 5, 6) := (C160_axes_partial 4 5 6).2.2.2.1

/-- **C160 (violation).** A HEALPix map has two axes, and asking for the third is not refused: a test
source of a scan reads outside of the list of axes. -/
theorem C160_axes_violates (nPix nE : Nat) : imageDimension [nPix, nE] 2 = .ub ∧ testAxes [nPix, nE] = .ub := ⟨rfl, rfl⟩

example : testAxes [49152, 10] = .ub := (C160_axes_violates 49152 10).2

end Verif.HpxIo
