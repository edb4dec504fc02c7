import Verif.Sparse.Spec
/- Helper lemmas for the sparse vector. -/
namespace Verif.Sparse

variable {T : Type} [DecidableEq T]

theorem fillLoop_eq_nonNull_aux (null : T) (v : List T) (k : Nat) :
    fillLoop null k v =
      ((v.zipIdx k).filter (fun p => p.1 ≠ null)).map (fun p => (p.2, p.1)) := by
  induction v generalizing k with
  | nil => simp [fillLoop]
  | cons x xs ih =>
    simp only [fillLoop, List.zipIdx_cons, List.filter_cons]
    by_cases h : x = null <;> simp [h, ih]

theorem fillLoop_eq_nonNull (null : T) (v : List T) :
    fillLoop null 0 v = nonNull null v := fillLoop_eq_nonNull_aux null v 0

theorem fillLoop_append (null : T) (v w : List T) (k : Nat) :
    fillLoop null k (v ++ w) = fillLoop null k v ++ fillLoop null (k + v.length) w := by
  induction v generalizing k with
  | nil => simp [fillLoop]
  | cons x xs ih =>
    simp only [List.cons_append, fillLoop, ih, List.length_cons]
    have : k + 1 + xs.length = k + (xs.length + 1) := by omega
    split <;> simp [this]

theorem fillLoop_replicate (null : T) (n k : Nat) :
    fillLoop null k (List.replicate n null) = [] := by
  induction n generalizing k with
  | zero => rfl
  | succ n ih => simp [List.replicate_succ, fillLoop, ih]

theorem fillLoop_key_ge (null : T) (v : List T) (k : Nat) :
    ∀ p ∈ fillLoop null k v, k ≤ p.1 := by
  induction v generalizing k with
  | nil => simp [fillLoop]
  | cons x xs ih =>
    intro p hp
    simp only [fillLoop] at hp
    split at hp
    · rcases List.mem_cons.1 hp with rfl | hp
      · simp
      · have := ih _ _ hp; omega
    · have := ih _ _ hp; omega

theorem dropWhile_fillLoop (null : T) (v : List T) (k i : Nat) (hki : k ≤ i) :
    (fillLoop null k v).dropWhile (fun p => p.1 < i) = fillLoop null i (v.drop (i - k)) := by
  induction v generalizing k with
  | nil => simp [fillLoop]
  | cons x xs ih =>
    rcases Nat.lt_or_eq_of_le hki with h | rfl
    · have e : i - k = (i - (k + 1)) + 1 := by omega
      rw [e, List.drop_succ_cons, ← ih (k + 1) h]
      simp only [fillLoop]
      split
      · simp [h]
      · rfl
    · rw [Nat.sub_self, List.drop_zero]
      cases hf : fillLoop null k (x :: xs) with
      | nil => simp
      | cons p ps =>
        have := fillLoop_key_ge null (x :: xs) k p (by simp [hf])
        rw [List.dropWhile_cons]
        simp; omega

theorem lowerBound_eq {s : SV T} {v : List T} (hd : s.data = fillLoop s.null 0 v) (i : Nat) :
    s.lowerBound i = fillLoop s.null i (v.drop i) := by
  rw [SV.lowerBound, hd, dropWhile_fillLoop _ _ _ _ (Nat.zero_le _), Nat.sub_zero]

theorem upperBound_eq {s : SV T} {v : List T} (hd : s.data = fillLoop s.null 0 v) (i : Nat) :
    s.upperBound i = fillLoop s.null (i + 1) (v.drop (i + 1)) := by
  rw [← lowerBound_eq hd]
  simp [SV.upperBound, SV.lowerBound, Nat.lt_succ_iff]

theorem get_eq_of_data {s : SV T} {v : List T} (hd : s.data = fillLoop s.null 0 v) (i : Nat) :
    s.get i = (v[i]?).getD s.null := by
  unfold SV.get SV.find
  rw [lowerBound_eq hd]
  rcases Nat.lt_or_ge i v.length with h | h
  · rw [List.drop_eq_getElem_cons h]
    simp only [fillLoop]
    by_cases hx : v[i] = s.null
    · simp only [hx, ne_eq, not_true_eq_false, if_false]
      cases hf : fillLoop s.null (i + 1) (v.drop (i + 1)) with
      | nil => simp [h, hx]
      | cons p ps =>
        have := fillLoop_key_ge s.null (v.drop (i + 1)) (i + 1) p (by simp [hf])
        have hne : p.1 ≠ i := by omega
        simp [h, hx, hne]
    · simp [h, hx]
  · simp [List.drop_eq_nil_of_le h, fillLoop, h]

/-- The working representation predicate. -/
def Rep (s : SV T) (v : List T) : Prop := s.size = v.length ∧ s.data = fillLoop s.null 0 v

theorem Rep.represents {s : SV T} {v : List T} (h : Rep s v) : Represents s v where
  size_eq := h.1
  get_eq i hi := by rw [get_eq_of_data h.2]; simp [hi]
  get_out i hi := by rw [get_eq_of_data h.2]; simp [hi]
  entries := by rw [h.2, fillLoop_eq_nonNull]

theorem Represents.rep {s : SV T} {v : List T} (h : Represents s v) : Rep s v :=
  ⟨h.size_eq, by rw [h.entries, fillLoop_eq_nonNull]⟩

theorem step_null (s : SV T) (op : Op T) : (step s op).null = s.null := by
  cases op with
  | pushBack v => rfl
  | fillFromVect v => simp only [step, SV.fillFromVect]; split <;> rename_i h <;> grind
  | clear => rfl
  | clearData => rfl
  | resize n => simp only [step, SV.resize]; split <;> rfl
  | freeMemory => rfl

theorem rep_step {s : SV T} {v : List T} (h : Rep s v) (op : Op T)
    (hop : ∀ n, op = .resize n → v.length ≤ n) :
    Rep (step s op) (denseStep s.null v op) := by
  obtain ⟨h1, h2⟩ := h
  cases op with
  | pushBack x =>
    refine ⟨by simp [step, SV.pushBack, denseStep, h1], ?_⟩
    simp only [step, SV.pushBack, denseStep, SV.testValue, fillLoop_append, h2, h1, fillLoop,
      Nat.zero_add]
    by_cases hx : x = s.null <;> simp [hx]
  | fillFromVect w =>
    simp only [step, SV.fillFromVect, denseStep, h1]
    by_cases hw : v.length = w.length
    · simp [hw, Rep]
    · simp [hw, Rep, h1, h2]
  | clear => simp [step, SV.clear, denseStep, Rep, fillLoop]
  | clearData => simp [step, SV.clearData, denseStep, Rep, h1, fillLoop_replicate]
  | resize n =>
    have hn := hop n rfl
    simp [step, SV.resize, denseStep, Rep, h1, hn, h2, vresize, List.take_of_length_le hn,
      fillLoop_append, fillLoop_replicate]
  | freeMemory => simp [step, SV.freeMemory, SV.clear, denseStep, Rep, fillLoop]

theorem rep_run {s : SV T} {v : List T} (h : Rep s v) (ops : List (Op T))
    (hops : NoShrink s.null v ops) :
    Rep (run s ops) (denseRun s.null v ops) := by
  induction ops generalizing s v with
  | nil => simpa [run, denseRun] using h
  | cons op ops ih =>
    have := ih (rep_step h op hops.1) (by rw [step_null]; exact hops.2)
    simpa [run, denseRun, step_null] using this

theorem run_null (s : SV T) (ops : List (Op T)) : (run s ops).null = s.null := by
  induction ops generalizing s with
  | nil => rfl
  | cons op ops ih => simpa [run, step_null] using ih (step s op)

/-- Assigning the entries of `v` over `w`: non-null elements of `v` win. -/
def overlay (null : T) (v w : List T) : List T :=
  List.zipWith (fun x y => if x ≠ null then x else y) v w

theorem assignAll_fillLoop (null : T) (v w pre : List T) (off k : Nat)
    (hk : k = off + pre.length) (hl : v.length = w.length) :
    assignAll off (fillLoop null k v) (pre ++ w) = .ok (pre ++ overlay null v w) := by
  induction v generalizing w pre k with
  | nil =>
    have : w = [] := by simpa using hl.symm
    subst this; simp [fillLoop, assignAll, overlay]
  | cons x xs ih =>
    cases w with
    | nil => simp at hl
    | cons y ys =>
      have hl' : xs.length = ys.length := by simpa using hl
      simp only [fillLoop]
      by_cases hx : x = null
      · have := ih ys (pre ++ [y]) (k + 1) (by simp; omega) hl'
        simpa [hx, overlay] using this
      · have := ih ys (pre ++ [x]) (k + 1) (by simp; omega) hl'
        have hko : ¬ k < off := by omega
        have hidx : k - off = pre.length := by omega
        simpa [hx, overlay, assignAll, hko, hidx, vset] using this

/-- If the vector is too short for a non-null element, the loop is undefined. -/
theorem assignAll_ub (null : T) (v w : List T) (off k : Nat) (x : T) (hx : x ≠ null)
    (hk : off ≤ k) (hl : w.length ≤ k + v.length - off) :
    assignAll off (fillLoop null k (v ++ [x])) w = .ub := by
  induction v generalizing w k with
  | nil =>
    have h1 : ¬ k < off := by omega
    have h2 : ¬ k - off < w.length := by simp at hl; omega
    simp [fillLoop, hx, assignAll, h1, vset, h2]
  | cons y ys ih =>
    simp only [List.cons_append, fillLoop]
    by_cases hy : y = null
    · simp only [hy, ne_eq, not_true_eq_false, if_false]
      exact ih w (k + 1) (by omega) (by simp at hl; omega)
    · have h1 : ¬ k < off := by omega
      simp only [ne_eq, hy, not_false_eq_true, if_true, assignAll, h1, if_false]
      by_cases h2 : k - off < w.length
      · rw [vset_lt _ _ _ h2]
        exact ih _ (k + 1) (by omega) (by simp at hl ⊢; omega)
      · rw [vset_ge _ _ _ (by omega)]; rfl

theorem overlay_replicate (null : T) (v : List T) :
    overlay null v (List.replicate v.length null) = v := by
  induction v with
  | nil => rfl
  | cons x xs ih =>
    simp only [overlay, List.length_cons, List.replicate_succ, List.zipWith_cons_cons] at *
    rw [ih]
    by_cases hx : x = null <;> simp [hx]

theorem rangeLU_eq {s : SV T} {v : List T} (hd : s.data = fillLoop s.null 0 v)
    (first last : Nat) (h : first ≤ last) :
    s.rangeLU first last = fillLoop s.null first ((v.drop first).take (last + 1 - first)) := by
  unfold SV.rangeLU
  rw [lowerBound_eq hd, upperBound_eq hd]
  have hsplit : v.drop first =
      (v.drop first).take (last + 1 - first) ++ v.drop (last + 1) := by
    conv => lhs; rw [← List.take_append_drop (last + 1 - first) (v.drop first)]
    rw [List.drop_drop]
    congr 2; omega
  by_cases hlen : last + 1 ≤ v.length
  · have hl : ((v.drop first).take (last + 1 - first)).length = last + 1 - first := by
      simp; omega
    conv => lhs; rw [hsplit, fillLoop_append, hl]
    have : first + (last + 1 - first) = last + 1 := by omega
    rw [this]
    simp
  · have h0 : v.drop (last + 1) = [] := List.drop_eq_nil_of_le (by omega)
    have ht : (v.drop first).take (last + 1 - first) = v.drop first :=
      List.take_of_length_le (by simp; omega)
    rw [h0, ht]; simp [fillLoop]

/-- Adding the entries of `v` to `w`. -/
theorem addAll_fillLoop [Add T] (null : T) (v w pre : List T) (hl : v.length = w.length) :
    addAll (fillLoop null pre.length v) (pre ++ w) =
      .ok (pre ++ List.zipWith (fun x y => if x ≠ null then y + x else y) v w) := by
  induction v generalizing w pre with
  | nil =>
    have : w = [] := by simpa using hl.symm
    subst this; simp [fillLoop, addAll]
  | cons x xs ih =>
    cases w with
    | nil => simp at hl
    | cons y ys =>
      have hl' : xs.length = ys.length := by simpa using hl
      simp only [fillLoop]
      by_cases hx : x = null
      · have := ih ys (pre ++ [y]) hl'
        simpa [hx] using this
      · have := ih ys (pre ++ [y + x]) hl'
        simpa [hx, addAll, vset] using this

theorem subAll_fillLoop [Sub T] (null : T) (v w pre : List T) (hl : v.length = w.length) :
    subAll (fillLoop null pre.length v) (pre ++ w) =
      .ok (pre ++ List.zipWith (fun x y => if x ≠ null then y - x else y) v w) := by
  induction v generalizing w pre with
  | nil =>
    have : w = [] := by simpa using hl.symm
    subst this; simp [fillLoop, subAll]
  | cons x xs ih =>
    cases w with
    | nil => simp at hl
    | cons y ys =>
      have hl' : xs.length = ys.length := by simpa using hl
      simp only [fillLoop]
      by_cases hx : x = null
      · have := ih ys (pre ++ [y]) hl'
        simpa [hx] using this
      · have := ih ys (pre ++ [y - x]) hl'
        simpa [hx, subAll, vset] using this

omit [DecidableEq T] in
theorem keyValueLoop_zero (ps : List (Nat × T)) (kpre ks : List Nat) (vpre vs : List T)
    (hk : ks.length = ps.length) (hv : vs.length = ps.length) (hp : kpre.length = vpre.length) :
    keyValueLoop 0 kpre.length ps (kpre ++ ks) (vpre ++ vs) =
      .ok (kpre ++ ps.map Prod.fst, vpre ++ ps.map Prod.snd) := by
  induction ps generalizing kpre ks vpre vs with
  | nil =>
    have h1 : ks = [] := by simpa using hk
    have h2 : vs = [] := by simpa using hv
    simp [keyValueLoop, h1, h2]
  | cons p ps ih =>
    cases ks with
    | nil => simp at hk
    | cons a as =>
      cases vs with
      | nil => simp at hv
      | cons b bs =>
        have := ih (kpre ++ [p.1]) as (vpre ++ [p.2]) bs (by simpa using hk) (by simpa using hv)
          (by simpa using hp)
        simp [keyValueLoop, vset] at this ⊢
        rw [if_pos (by omega)]
        simp only [Res.bind_ok]
        rw [show (vpre ++ b :: bs).set kpre.length p.2 = vpre ++ p.2 :: bs by
          rw [hp]; simp]
        exact this

end Verif.Sparse
