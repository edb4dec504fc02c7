import Verif.HistND.Lemmas
set_option linter.unusedVariables false
set_option linter.unusedSimpArgs false
set_option linter.unusedSectionVars false
namespace Verif.HistND

open Verif.Vec

variable {V K : Type}

/-- The coordinates `values` fall in the bins `iv` of the axes, at least `border` bins
from either end. -/
def FallsIn (border : Nat) (binners : List (Binner V)) (values : List V) (iv : List Nat) : Prop :=
  List.Forall₂ (fun (b : Binner V × V) (i : Nat) => b.1.index b.2 = (i : Int) ∧ border ≤ i ∧
    i + border < b.1.n) (binners.zip values) iv

theorem findBins_of_fallsIn (border : Nat) : ∀ (bs : List (Binner V)) (vs : List V) (iv : List Nat),
    vs.length = bs.length → FallsIn border bs vs iv → findBins border bs vs = some iv := by
  intro bs
  induction bs with
  | nil => intro vs iv _ hiv; unfold FallsIn at hiv; cases hiv; rfl
  | cons b bs ih =>
    intro vs iv hl hiv
    cases vs with
    | nil => simp at hl
    | cons v vs =>
      unfold FallsIn at hiv
      cases hiv with
      | cons h1 h2 =>
        rename_i i is
        obtain ⟨e, h3, h4⟩ := h1
        simp only at e h4
        simp only [findBins]
        rw [if_neg (by rw [e]; omega), ih vs is (by simpa using hl) h2, e]
        simp

theorem fallsIn_of_findBins (border : Nat) : ∀ (bs : List (Binner V)) (vs : List V) (iv : List Nat),
    vs.length = bs.length → findBins border bs vs = some iv → FallsIn border bs vs iv := by
  intro bs
  induction bs with
  | nil => intro vs iv hl h; simp [findBins] at h; subst h; unfold FallsIn; simp
  | cons b bs ih =>
    intro vs iv hl h
    cases vs with
    | nil => simp at hl
    | cons v vs =>
      simp only [findBins] at h
      by_cases hc : b.index v < border ∨ (b.n : Int) - border ≤ b.index v
      · rw [if_pos hc] at h; exact absurd h (by simp)
      · rw [if_neg hc] at h
        cases hf : findBins border bs vs with
        | none => rw [hf] at h; simp at h
        | some r =>
          rw [hf] at h
          simp only [Option.map_some, Option.some.injEq] at h
          subst h
          have := ih vs r (by simpa using hl) hf
          unfold FallsIn at this ⊢
          simp only [List.zip_cons_cons]
          exact List.Forall₂.cons ⟨by simp only; omega, by omega, by simp only; omega⟩ this

theorem findBins_iff {border : Nat} {bs : List (Binner V)} {vs : List V} {iv : List Nat}
    (hl : vs.length = bs.length) : findBins border bs vs = some iv ↔ FallsIn border bs vs iv :=
  ⟨fallsIn_of_findBins border bs vs iv hl, findBins_of_fallsIn border bs vs iv hl⟩

/-- Content of the cell of a tuple. -/
def Hist.at [Zero K] (h : Hist V K) (iv : List Nat) : K := val h.data (cell h.dims iv)

/-- C23: the constructor gives a histogram of zeros, for any non-empty list of axes with at
least one bin each. -/
theorem C23_new [Zero K] (binners : List (Binner V)) (hne : binners ≠ [])
    (hpos : ∀ b ∈ binners, 0 < b.n) :
    ∃ h : Hist V K, Hist.new binners = .ok h ∧ h.Ok ∧ h.binners = binners ∧
      ∀ iv, InRange h.dims iv → h.at iv = 0 := by
  obtain ⟨h, h1, h2, h3, h4⟩ := new_ok (K := K) binners hne hpos
  exact ⟨h, h1, h2, h3, fun iv _ => h4 _⟩

/-- C23: in-range tuples and cells of the data array correspond one to one. -/
theorem C23_cells_bijective (h : Hist V K) (hk : h.Ok) :
    (∀ iv, InRange h.dims iv → ∃ p, h.binIndex iv = .ok p ∧ p < h.data.length) ∧
    (∀ s t p, InRange h.dims s → InRange h.dims t → h.binIndex s = .ok p → h.binIndex t = .ok p →
      s = t) ∧
    (∀ p, p < h.data.length → ∃ iv, InRange h.dims iv ∧ h.binIndex iv = .ok p) := by
  refine ⟨fun iv hi => ⟨_, binIndex_ok hk hi.length, by rw [hk.size]; exact cell_lt hi⟩, ?_, ?_⟩
  · intro s t p hs ht h1 h2
    rw [binIndex_ok hk hs.length] at h1
    rw [binIndex_ok hk ht.length] at h2
    injection h1 with h1
    injection h2 with h2
    exact cell_inj hs ht (h1.trans h2.symm)
  · intro p hp
    rw [hk.size] at hp
    obtain ⟨iv, h1, h2⟩ := cell_surj hp
    exact ⟨iv, h1, by rw [binIndex_ok hk h1.length, h2]⟩

/-- C23: looking up coordinates finds the tuple of the bins they fall in, or -1 if one of
them falls outside its axis less the border. -/
theorem C23_lookup (h : Hist V K) (hk : h.Ok) (values : List V) (border : Nat)
    (hl : values.length = h.binners.length) :
    (∀ iv, FallsIn border h.binners values iv →
      h.binIndexOf values border = .ok (some (cell h.dims iv))) ∧
    ((∃ b ∈ h.binners.zip values, b.1.index b.2 < border ∨ (b.1.n : Int) - border ≤ b.1.index b.2) →
      h.binIndexOf values border = .ok none) := by
  unfold Hist.binIndexOf
  rw [if_neg (by simpa using hl)]
  constructor
  · intro iv hiv
    rw [findBins_of_fallsIn border _ _ _ hl hiv]
    simp only
    rw [binIndex_ok hk, Res.bind_ok]
    have := List.Forall₂.length_eq hiv
    rw [h.dims_length, ← this]; simp [hl]
  · intro hex
    have key : ∀ (bs : List (Binner V)) (vs : List V),
        (∃ b ∈ bs.zip vs, b.1.index b.2 < border ∨ (b.1.n : Int) - border ≤ b.1.index b.2) →
        findBins border bs vs = none := by
      intro bs
      induction bs with
      | nil => intro vs h; simp at h
      | cons b bs ih =>
        intro vs h
        cases vs with
        | nil => simp at h
        | cons v vs =>
          simp only [findBins]
          by_cases hc : b.index v < border ∨ (b.n : Int) - border ≤ b.index v
          · rw [if_pos hc]
          · rw [if_neg hc, ih vs ?_]; rfl
            obtain ⟨x, hx, hx2⟩ := h
            simp only [List.zip_cons_cons, List.mem_cons] at hx
            rcases hx with rfl | hx
            · exact absurd hx2 hc
            · exact ⟨x, hx, hx2⟩
    rw [key _ _ hex]

/-- C23: one fill adds the weight to the cell of the bins the coordinates fall in and leaves
all others; coordinates outside leave everything. -/
theorem C23_fill [AddCommMonoid K] (h : Hist V K) (hk : h.Ok) (values : List V) (w : K)
    (hl : values.length = h.binners.length) :
    ∃ h', h.fillBin values w = .ok h' ∧ h'.Ok ∧ h'.binners = h.binners ∧
      ∀ iv, InRange h.dims iv →
        (FallsIn 0 h.binners values iv → h'.at iv = h.at iv + w) ∧
        (¬ FallsIn 0 h.binners values iv → h'.at iv = h.at iv) := by
  simp only [← findBins_iff hl]
  unfold Hist.fillBin Hist.binIndexOf
  rw [if_neg (by simpa using hl)]
  cases hf : findBins 0 h.binners values with
  | none =>
    exact ⟨h, rfl, hk, rfl, fun iv _ => ⟨fun hh => by simp at hh, fun _ => rfl⟩⟩
  | some iv0 =>
    have hr : InRange h.dims iv0 := findBins_some hl hf
    simp only [binIndex_ok hk hr.length, Res.bind_ok]
    have hlt : cell h.dims iv0 < h.data.length := by rw [hk.size]; exact cell_lt hr
    rw [vget_val hlt, Res.bind_ok, vset_lt _ _ _ hlt, Res.bind_ok]
    refine ⟨_, rfl, ⟨hk.nonempty, hk.pos, by simp only [List.length_set]; exact hk.size, hk.strides⟩, rfl, ?_⟩
    intro iv hiv
    change (_ → val (h.data.set _ _) (cell h.dims iv) = _) ∧ (_ → val (h.data.set _ _) (cell h.dims iv) = _)
    rw [val_set hlt]
    refine ⟨fun he => ?_, fun he => ?_⟩
    · injection he with he
      subst he; rw [if_pos rfl]; rfl
    · rw [if_neg (fun hh => he (congrArg some (cell_inj hiv hr hh).symm))]; rfl

/-- A sequence of fills. -/
def Hist.fillAll [Add K] (h : Hist V K) : List (List V × K) → Res (Hist V K)
  | [] => .ok h
  | (v, w) :: r => do
    let h' ← h.fillBin v w
    h'.fillAll r

open Classical in
/-- C23: after any sequence of fills of a new histogram, each cell holds the sum of the
weights of the fills that fell in its bins. -/
theorem C23_fill_history [AddCommMonoid K] (binners : List (Binner V)) (hne : binners ≠ [])
    (hpos : ∀ b ∈ binners, 0 < b.n) (fills : List (List V × K))
    (hl : ∀ f ∈ fills, f.1.length = binners.length) :
    ∃ h0 h : Hist V K, Hist.new binners = .ok h0 ∧ h0.fillAll fills = .ok h ∧
      ∀ iv, InRange (binners.map Binner.n) iv →
        h.at iv = ((fills.filter (fun f => FallsIn 0 binners f.1 iv)).map Prod.snd).sum := by
  obtain ⟨h0, h1, h2, h3, h4⟩ := C23_new (K := K) binners hne hpos
  have key : ∀ (fills : List (List V × K)) (h0 : Hist V K), h0.Ok → h0.binners = binners →
      (∀ f ∈ fills, f.1.length = binners.length) → ∃ h, h0.fillAll fills = .ok h ∧
      ∀ iv, InRange (binners.map Binner.n) iv → h.at iv = h0.at iv +
        ((fills.filter (fun f => FallsIn 0 binners f.1 iv)).map Prod.snd).sum := by
    intro fills
    induction fills with
    | nil => intro h0 _ _ _; exact ⟨h0, rfl, fun iv _ => by simp⟩
    | cons f fills ih =>
      intro h0 hk hb hl
      obtain ⟨v, w⟩ := f
      obtain ⟨h', g1, g2, g3, g4⟩ := C23_fill h0 hk v w (by rw [hb]; exact hl (v, w) (by simp))
      obtain ⟨h, k1, k2⟩ := ih h' g2 (g3.trans hb) (fun f hf => hl f (List.mem_cons_of_mem _ hf))
      refine ⟨h, by rw [Hist.fillAll, g1, Res.bind_ok, k1], ?_⟩
      intro iv hiv
      have g4 := g4 iv (by rw [Hist.dims, hb]; exact hiv)
      rw [hb] at g4
      rw [k2 iv hiv, List.filter_cons]
      by_cases hc : FallsIn 0 binners v iv
      · simp only [g4.1 hc, hc, if_true, decide_true, List.map_cons, List.sum_cons, add_assoc]
      · simp only [g4.2 hc, hc, if_false, decide_false, Bool.false_eq_true]
  obtain ⟨h, k1, k2⟩ := key fills h0 h2 h3 hl
  refine ⟨h0, h, h1, k1, fun iv hiv => ?_⟩
  rw [k2 iv hiv, h4 iv (by rw [Hist.dims, h3]; exact hiv), zero_add]

/-- Two axes of 2 and 3 bins over the integers. -/
def exBinners : List (Binner Int) := [⟨2, id⟩, ⟨3, id⟩]

example : ∃ h0 h : Hist Int Int, Hist.new exBinners = .ok h0 ∧
    h0.fillAll [([1, 2], 5), ([0, 1], 7), ([1, 2], 1), ([2, 0], 9)] = .ok h ∧ h.at [1, 2] = 6 := by
  obtain ⟨h0, h, h1, h2, h3⟩ := C23_fill_history (K := Int) exBinners (by simp [exBinners])
    (by simp [exBinners]) [([1, 2], 5), ([0, 1], 7), ([1, 2], 1), ([2, 0], 9)] (by simp [exBinners])
  refine ⟨h0, h, h1, h2, ?_⟩
  rw [h3 [1, 2] (List.Forall₂.cons (by simp) (List.Forall₂.cons (by simp) List.Forall₂.nil))]
  simp [List.filter_cons, FallsIn, exBinners]

/-- C23: setting a slice replaces exactly the cells of the slice. -/
theorem C23_set_slice [Zero K] (h : Hist V K) (hk : h.Ok) (idim : Nat) (hi : idim < h.dims.length)
    (iv : List Nat) (hiv : InRange h.dims (iv.set idim 0)) (hlen : iv.length = h.dims.length)
    (data : List K) (hd : data.length = val h.dims idim) :
    ∃ h', h.setSlice idim iv data = .ok h' ∧ h'.Ok ∧ h'.binners = h.binners ∧
      ∀ t, InRange h.dims t →
        (AgreeOff idim t iv → h'.at t = val data (val t idim)) ∧
        (¬ AgreeOff idim t iv → h'.at t = h.at t) := by
  unfold Hist.setSlice
  rw [if_neg (by rw [← h.dims_length]; omega), if_neg (by rw [← h.dims_length]; simpa using hlen),
    dimSize_ok hk hi, Res.bind_ok, if_neg (by simpa using hd),
    binIndex_ok hk (by simpa using hlen), Res.bind_ok, stride_ok hk hi, Res.bind_ok]
  have hcell : ∀ j, cell h.dims (iv.set idim 0) + j * (h.dims.take idim).prod =
      cell h.dims (iv.set idim j) := fun j => (cell_set _ _ _ _ hlen hi).symm
  have hin : ∀ j, j < data.length → InRange h.dims (iv.set idim j) := fun j hj =>
    inRange_set hi hiv (by omega)
  obtain ⟨w, w1, w2, w3, w4⟩ := write_line data h.data (cell h.dims (iv.set idim 0))
    (h.dims.take idim).prod (prod_pos hk.pos _) (by
      intro j hj
      rw [hcell, hk.size]; exact cell_lt (hin j hj))
  rw [w1, Res.bind_ok]
  refine ⟨_, rfl, ⟨hk.nonempty, hk.pos, w2.trans hk.size, hk.strides⟩, rfl, ?_⟩
  intro t ht
  refine ⟨fun ha => ?_, fun ha => ?_⟩
  · obtain ⟨j, rfl⟩ := (agreeOff_iff (by omega)).1 ha
    have hj : val (iv.set idim j) idim = j := by rw [val_set (by omega), if_pos rfl]
    have hlt := ht.get idim hi
    rw [hj] at hlt ⊢
    change val w (cell h.dims (iv.set idim j)) = _
    rw [← hcell, w3 j (by omega)]
  · change val w (cell h.dims t) = _
    rw [w4]; rfl
    intro j hj he
    rw [hcell] at he
    exact ha ((agreeOff_iff (by omega)).2 ⟨j, cell_inj ht (hin j hj) he⟩)

/-- C23: a slice is read cell by cell. -/
theorem C23_get_slice [Zero K] (h : Hist V K) (hk : h.Ok) (idim : Nat) (hi : idim < h.dims.length)
    (iv : List Nat) (hiv : InRange h.dims (iv.set idim 0)) (hlen : iv.length = h.dims.length) :
    h.getSlice idim iv = .ok ((List.range (val h.dims idim)).map (fun j => h.at (iv.set idim j))) := by
  unfold Hist.getSlice
  rw [if_neg (by rw [← h.dims_length]; omega), if_neg (by rw [← h.dims_length]; simpa using hlen),
    dimSize_ok hk hi, Res.bind_ok, binIndex_ok hk (by simpa using hlen), Res.bind_ok,
    stride_ok hk hi, Res.bind_ok]
  apply mapM_ok
  intro j hj
  rw [List.mem_range] at hj
  rw [← cell_set _ _ _ _ hlen hi]
  exact vget_val (by rw [hk.size]; exact cell_lt (inRange_set hi hiv hj))

/-- C23: reading a slice just set gives the data set. -/
theorem C23_slice_roundtrip [Zero K] (h : Hist V K) (hk : h.Ok) (idim : Nat)
    (hi : idim < h.dims.length) (iv : List Nat) (hiv : InRange h.dims (iv.set idim 0))
    (hlen : iv.length = h.dims.length) (data : List K) (hd : data.length = val h.dims idim) :
    ∃ h', h.setSlice idim iv data = .ok h' ∧ h'.getSlice idim iv = .ok data := by
  obtain ⟨h', h1, h2, h3, h4⟩ := C23_set_slice h hk idim hi iv hiv hlen data hd
  have hdm : h'.dims = h.dims := by rw [Hist.dims, h3]; rfl
  refine ⟨h', h1, ?_⟩
  rw [C23_get_slice h' h2 idim (by rw [hdm]; exact hi) iv (by rw [hdm]; exact hiv) (by rw [hdm]; exact hlen),
    hdm]
  congr 1
  apply ext_val
  · simp [hd]
  · intro j hj
    simp only [List.length_map, List.length_range] at hj
    rw [val_map_range _ hj]
    have hin := inRange_set hi hiv hj
    rw [(h4 _ hin).1 ((agreeOff_iff (by omega)).2 ⟨j, rfl⟩), val_set (by omega), if_pos rfl]

/-- The hypotheses of the slice theorems hold for a new histogram. -/
example : ∃ h h' : Hist Int Int, Hist.new exBinners = .ok h ∧
    h.setSlice 1 [1, 0] [4, 5, 6] = .ok h' ∧ h'.getSlice 1 [1, 0] = .ok [4, 5, 6] := by
  obtain ⟨h, h1, h2, h3, h4⟩ := C23_new (K := Int) exBinners (by simp [exBinners]) (by simp [exBinners])
  have hd : h.dims = [2, 3] := by rw [Hist.dims, h3]; rfl
  obtain ⟨h', g1, g2⟩ := C23_slice_roundtrip h h2 1 (by rw [hd]; simp) [1, 0]
    (by rw [hd]; exact List.Forall₂.cons (by simp) (List.Forall₂.cons (by simp) List.Forall₂.nil))
    (by rw [hd]; rfl) [4, 5, 6] (by rw [hd]; rfl)
  exact ⟨h, h', h1, g1, g2⟩

/-- C23: data of the wrong size, an axis or a tuple of the wrong size are refused. -/
theorem C23_slice_refused [Zero K] (h : Hist V K) (hk : h.Ok) (idim : Nat) (iv : List Nat) (data : List K)
    (hbad : h.dims.length ≤ idim ∨ iv.length ≠ h.dims.length ∨ data.length ≠ val h.dims idim) :
    h.setSlice idim iv data = .throws := by
  unfold Hist.setSlice
  by_cases h1 : h.binners.length ≤ idim
  · rw [if_pos h1]
  · rw [if_neg h1]
    by_cases h2 : iv.length ≠ h.binners.length
    · rw [if_pos h2]
    · rw [if_neg h2, dimSize_ok hk (by rw [h.dims_length]; omega), Res.bind_ok, if_pos]
      rw [h.dims_length] at hbad
      tauto

/-! ### C24 -/

theorem sumCell_ok [AddCommMonoid K] (h : Hist V K) (stride first last iout : Nat)
    (hb : ∀ j, j < last - first → iout + j * stride < h.data.length) :
    h.sumCell stride first last iout =
      .ok (((List.range (last - first)).map (fun j => val h.data (iout + j * stride))).sum) := by
  unfold Hist.sumCell
  rw [loop_sum (fun j => val h.data (iout + (j - first) * stride)) 0 (by
    intro j s h1 h2
    rw [vget_val (hb _ (by omega)), Res.bind_ok]), zero_add]
  simp only [Nat.add_sub_cancel_left]
  congr 1

theorem cell_append (dims : List Nat) (n : Nat) (iv : List Nat) (j : Nat) (hl : iv.length = dims.length) :
    cell (dims ++ [n]) (iv ++ [j]) = cell dims iv + j * dims.prod := by
  induction dims generalizing iv with
  | nil =>
    cases iv with
    | nil => simp [cell]
    | cons a l => simp at hl
  | cons m ms ih =>
    cases iv with
    | nil => simp at hl
    | cons a l =>
      simp only [List.cons_append, cell, List.prod_cons]
      rw [ih l (by simpa using hl)]; ring

/-- C24 (partial): on the last axis (of two or more), each remaining cell gets the sum over
the first `last - first` bins, which is the range asked for when `first = 0`. -/
theorem C24_sum_range_partial [AddCommMonoid K] (binners : List (Binner V)) (b : Binner V)
    (hne : binners ≠ []) (h : Hist V K) (hk : h.Ok) (hb : h.binners = binners ++ [b])
    (first last : Nat) (hfl : first < last) (hl : last ≤ b.n) :
    ∃ r : Hist V K, h.sumRange binners.length first last = .ok r ∧ r.Ok ∧ r.binners = binners ∧
      ∀ iv, InRange (binners.map Binner.n) iv →
        r.at iv = ((List.range (last - first)).map (fun j => h.at (iv ++ [j]))).sum := by
  have hdims : h.dims = binners.map Binner.n ++ [b.n] := by rw [Hist.dims, hb]; simp
  have hi : binners.length < h.dims.length := by rw [hdims]; simp
  have hvd : val h.dims binners.length = b.n := by
    rw [hdims, val_lt (by simp)]; simp
  have hst : (h.dims.take binners.length).prod = (binners.map Binner.n).prod := by
    rw [hdims, List.take_append_of_le_length (by simp), List.take_of_length_le (by simp)]
  have hpos : ∀ x ∈ binners, 0 < x.n := by
    intro x hx
    apply hk.pos
    rw [hdims]; simp; left; exact ⟨x, hx, rfl⟩
  obtain ⟨r0, r1, r2, r3, r4⟩ := new_ok (K := K) binners hne hpos
  unfold Hist.sumRange
  rw [if_neg (by rw [hb]; simp), if_neg (by omega), dimSize_ok hk hi, Res.bind_ok, hvd,
    if_neg (by omega), if_neg (by omega)]
  have her : h.binners.eraseIdx binners.length = binners := by
    rw [hb, List.eraseIdx_append_of_length_le (by simp)]; simp
  rw [her, r1, Res.bind_ok, stride_ok hk hi, Res.bind_ok, hst]
  have hrd : r0.data.length = (binners.map Binner.n).prod := by rw [r2.size, Hist.dims, r3]
  have hsize : h.data.length = (binners.map Binner.n).prod * b.n := by
    rw [hk.size, hdims]; simp
  set P := (binners.map Binner.n).prod with hP
  rw [mapM_ok _ (fun i : Nat =>
    ((List.range (last - first)).map (fun j => val h.data (i + j * P))).sum) (List.range r0.data.length) (by
      intro i hi'
      rw [List.mem_range, hrd] at hi'
      apply sumCell_ok
      intro j hj
      rw [hsize]
      calc i + j * P < P + j * P := by omega
        _ = (j + 1) * P := by ring
        _ ≤ b.n * P := Nat.mul_le_mul_right _ (by omega)
        _ = P * b.n := Nat.mul_comm _ _), Res.bind_ok]
  refine ⟨_, rfl, ⟨r2.nonempty, r2.pos, ?_, r2.strides⟩, r3, ?_⟩
  · simp only [List.length_map, List.length_range]; exact r2.size
  · intro iv hiv
    have hc : cell r0.dims iv = cell (binners.map Binner.n) iv := by rw [Hist.dims, r3]
    change val _ (cell r0.dims iv) = _
    rw [hc, val_map_range _ (by rw [hrd]; exact cell_lt hiv)]
    congr 1
    apply List.map_congr_left
    intro j _
    unfold Hist.at
    rw [hdims, cell_append _ _ _ _ hiv.length]

/-- The hypotheses hold, and with `first = 0` the sum is the one asked for. -/
example : ∃ h r : Hist Int Int, Hist.new exBinners = .ok h ∧ h.sumRange 1 0 2 = .ok r := by
  obtain ⟨h, h1, h2, h3, h4⟩ := C23_new (K := Int) exBinners (by simp [exBinners]) (by simp [exBinners])
  obtain ⟨r, r1, -⟩ := C24_sum_range_partial [⟨2, id⟩] ⟨3, id⟩ (by simp) h h2 (by rw [h3]; rfl) 0 2
    (by omega) (by simp)
  exact ⟨h, r, h1, r1⟩

/-- C24 fails: the start of the range is ignored.  In a 2 × 3 histogram with cells
`1 .. 6`, summing bins 1 and 2 of the last axis gives the sums of bins 0 and 1. -/
theorem C24_first_bin_violates :
    let h : Hist Int Int := ⟨exBinners, [1, 2, 3, 4, 5, 6], [1, 2]⟩
    h.Ok ∧ (∃ r, h.sumRange 1 1 3 = .ok r ∧ r.data = [4, 6] ∧ r.at [0] = 4) ∧
      h.at [0, 1] + h.at [0, 2] = 8 := by
  refine ⟨⟨by simp [exBinners], by simp [Hist.dims, exBinners], by decide, by decide⟩,
    ⟨⟨[⟨2, id⟩], [4, 6], [1]⟩, rfl, rfl, by decide⟩, by decide⟩

/-- C24 fails for an axis that is not the last: summing over all bins of the first axis
mixes cells of different tuples. -/
theorem C24_axis_violates :
    let h : Hist Int Int := ⟨exBinners, [1, 2, 3, 4, 5, 6], [1, 2]⟩
    h.Ok ∧ (∃ r, h.sumRange 0 0 2 = .ok r ∧ r.data = [3, 5, 7] ∧ r.at [1] = 5) ∧
      h.at [0, 1] + h.at [1, 1] = 7 := by
  refine ⟨⟨by simp [exBinners], by simp [Hist.dims, exBinners], by decide, by decide⟩,
    ⟨⟨[⟨3, id⟩], [3, 5, 7], [1]⟩, rfl, rfl, by decide⟩, by decide⟩

/-- C24 fails for every one-dimensional histogram: the result has no axes and its
construction writes outside a vector. -/
theorem C24_one_axis_violates [AddCommMonoid K] (h : Hist V K) (hk : h.Ok) (b : Binner V) (hb : h.binners = [b])
    (first last : Nat) (hfl : first < last) (hl : last ≤ b.n) : h.sumRange 0 first last = .ub := by
  unfold Hist.sumRange
  have hd : h.dims = [b.n] := by rw [Hist.dims, hb]; rfl
  rw [if_neg (by rw [hb]; simp), if_neg (by omega), dimSize_ok hk (by rw [hd]; simp), Res.bind_ok]
  have : val h.dims 0 = b.n := by rw [hd]; rfl
  rw [this, if_neg (by omega), if_neg (by omega), hb]
  rfl

example : (⟨[⟨3, id⟩], [1, 2, 3], [1]⟩ : Hist Int Int).sumRange 0 0 3 = .ub :=
  C24_one_axis_violates _ ⟨by simp, by simp [Hist.dims], rfl, rfl⟩ ⟨3, id⟩ rfl 0 3 (by omega) (by simp)

end Verif.HistND
