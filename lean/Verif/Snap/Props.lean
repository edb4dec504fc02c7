import Verif.Snap.Lemmas
/-
C56: what a snapshot of a model reports as changed.
C57 (first part): the update a scan cache decides to make.
-/
set_option linter.unusedSectionVars false
set_option linter.unusedSimpArgs false
set_option linter.unusedVariables false
set_option linter.unnecessarySeqFocus false
namespace Verif.Snap
open Spec

variable {κ : Type} [LinearOrder κ]

/-! ### Lookups in snapshots -/

theorem sorted_of {m : List (κ × Src κ)} (h : IsModel m) : StdMap.Sorted m := h.1

theorem find_latch : ∀ (m : List (κ × Src κ)) (n : κ),
    StdMap.find (latchModel m) n = (StdMap.find m n).map latchSource
  | [], n => rfl
  | (k, s) :: m, n => by
    show (if k = n then some (latchSource s) else StdMap.find (latchModel m) n) = _
    simp only [StdMap.find]
    by_cases hk : k = n
    · rw [if_pos hk, if_pos hk]; rfl
    · rw [if_neg hk, if_neg hk, find_latch m n]

theorem keys_latch (m : List (κ × Src κ)) : (latchModel m).map Prod.fst = m.map Prod.fst := by
  simp [latchModel, Function.comp_def]

/-- The or of a list of statuses. -/
def ors (l : List Nat) : Nat := l.foldr (· ||| ·) 0

theorem ors_zero : ∀ l : List Nat, ors l = 0 ↔ ∀ x ∈ l, x = 0
  | [] => by simp [ors]
  | a :: l => by
    show a ||| ors l = 0 ↔ _
    rw [Nat.or_eq_zero_iff, ors_zero l]; simp

theorem hit_ors (m : Nat) : ∀ l : List Nat, hit (ors l) m = true ↔ ∃ x ∈ l, hit x m = true
  | [] => by simp [ors, hit_zero]
  | a :: l => by
    show hit (a ||| ors l) m = true ↔ _
    rw [hit_or, Bool.or_eq_true, hit_ors m l]; simp

/-- The status of the source `n`. -/
noncomputable def st (old new : List (κ × Src κ)) (n : κ) : Nat :=
  match StdMap.find old n, StdMap.find new n with
  | some s, some t => compare (latchSource s) t
  | some s, none => if !s.norm.free then freeRemoved else fixedRemoved
  | none, _ => 0

theorem compareSource_ok (old new : List (κ × Src κ)) {n : κ} (h : n ∈ old.map Prod.fst) :
    compareSource (latchModel old) n (StdMap.find new n) = .ok (st old new n) := by
  obtain ⟨s, hs⟩ := StdMap.mem_keys_iff.1 h
  simp only [compareSource, find_latch, hs, st, Option.map_some]
  cases StdMap.find new n <;> rfl

theorem fold_ok (old new : List (κ × Src κ)) (latched : List κ) : ∀ (L : List κ) (d : Diff κ),
    (∀ n ∈ L, n ∈ old.map Prod.fst) →
    L.foldlM (latchedBody (latchModel old) new latched) d = .ok { d with
      latched := d.latched ||| ors ((L.filter (· ∈ latched)).map (st old new)),
      changedLatched := d.changedLatched ++ L.filter (fun n => n ∈ latched ∧ st old new n ≠ 0),
      unlatched := d.unlatched ||| ors ((L.filter (· ∉ latched)).map (st old new)),
      changedUnlatched := d.changedUnlatched ++ L.filter (fun n => n ∉ latched ∧ st old new n ≠ 0) }
  | [], d, _ => by simp [ors, pure, Res.pure_eq]
  | n :: L, d, h => by
    rw [List.foldlM_cons]
    have e := compareSource_ok old new (h n (by simp))
    have ih := fold_ok old new latched L
    by_cases hl : n ∈ latched
    · simp only [latchedBody, e, Res.bind_ok, if_pos hl]
      rw [ih _ (fun k hk => h k (List.mem_cons_of_mem _ hk))]
      by_cases hz : st old new n = 0
      · simp [hl, hz, ors, List.filter_cons]
      · simp [hl, hz, ors, List.filter_cons, Nat.or_assoc]
    · simp only [latchedBody, e, Res.bind_ok, if_neg hl]
      rw [ih _ (fun k hk => h k (List.mem_cons_of_mem _ hk))]
      by_cases hz : st old new n = 0
      · simp [hl, hz, ors, List.filter_cons]
      · simp [hl, hz, ors, List.filter_cons, Nat.or_assoc]

/-- What `compare_latched` computes. -/
theorem compareLatched_ok (old new : List (κ × Src κ)) (latched : List κ) :
    compareLatched (latchModel old) new latched = .ok {
      latched := ors (((old.map Prod.fst).filter (· ∈ latched)).map (st old new)),
      changedLatched := (old.map Prod.fst).filter (fun n => n ∈ latched ∧ st old new n ≠ 0),
      unlatched := ors (((old.map Prod.fst).filter (· ∉ latched)).map (st old new)),
      changedUnlatched := (old.map Prod.fst).filter (fun n => n ∉ latched ∧ st old new n ≠ 0),
      newFree := ((new.filter fun s => !(old.map Prod.fst).contains s.1).filter
        fun s => s.2.norm.free).map Prod.fst,
      newFixed := ((new.filter fun s => !(old.map Prod.fst).contains s.1).filter
        fun s => !s.2.norm.free).map Prod.fst } := by
  simp only [compareLatched, keys_latch]
  rw [fold_ok old new latched _ _ (fun n h => h)]
  simp

theorem mem_iff {m : List (κ × Src κ)} (h : IsModel m) {n : κ} {s : Src κ} :
    (n, s) ∈ m ↔ StdMap.find m n = some s :=
  ⟨StdMap.find_of_mem h.1, StdMap.find_some_mem⟩

/-- The status of a source of the old model. -/
theorem st_cases {old new : List (κ × Src κ)} (ho : IsModel old) (hn : IsModel new) {n : κ}
    (h : n ∈ old.map Prod.fst) :
    (∃ s, (n, s) ∈ old ∧ n ∉ new.map Prod.fst ∧
      st old new n = if !s.norm.free then freeRemoved else fixedRemoved) ∨
    ∃ s t, Both old new n s t ∧ st old new n = compare (latchSource s) t := by
  obtain ⟨s, hs⟩ := StdMap.mem_keys_iff.1 h
  cases ht : StdMap.find new n with
  | none =>
    exact Or.inl ⟨s, (mem_iff ho).2 hs, StdMap.find_none.1 ht, by simp only [st, hs, ht]⟩
  | some t =>
    exact Or.inr ⟨s, t, ⟨(mem_iff ho).2 hs, (mem_iff hn).2 ht⟩, by simp only [st, hs, ht]⟩

theorem st_both {old new : List (κ × Src κ)} (ho : IsModel old) (hn : IsModel new) {n : κ}
    {s t : Src κ} (h : Both old new n s t) : st old new n = compare (latchSource s) t := by
  simp only [st, (mem_iff ho).1 h.1, (mem_iff hn).1 h.2]

theorem key_mem {m : List (κ × Src κ)} {n : κ} {s : Src κ} (h : (n, s) ∈ m) : n ∈ m.map Prod.fst :=
  List.mem_map.2 ⟨_, h, rfl⟩

theorem st_changed {old new : List (κ × Src κ)} (ho : IsModel old) (hn : IsModel new) {n : κ}
    (h : n ∈ old.map Prod.fst) : st old new n ≠ 0 ↔ Changed old new n := by
  rcases st_cases ho hn h with ⟨s, h1, h2, h3⟩ | ⟨s, t, h1, h3⟩
  · rw [h3]
    refine ⟨fun _ => Or.inl ⟨h, h2⟩, fun _ => ?_⟩
    cases s.norm.free <;> decide
  · rw [h3, ne_eq, (compare_facts s t (ho.2 _ _ h1.1) (hn.2 _ _ h1.2)).1]
    constructor
    · intro hne; exact Or.inr ⟨s, t, h1, hne⟩
    · rintro (⟨_, h2⟩ | ⟨s', t', h2, h4⟩)
      · exact absurd (key_mem h1.2) h2
      · have e1 : s' = s := by
          have := (mem_iff ho).1 h2.1; rw [(mem_iff ho).1 h1.1] at this; exact (Option.some.inj this).symm
        have e2 : t' = t := by
          have := (mem_iff hn).1 h2.2; rw [(mem_iff hn).1 h1.2] at this; exact (Option.some.inj this).symm
        subst e1; subst e2; exact h4

/-! ### C56 -/

/-- C56: a source is reported as unchanged exactly if its normalisation, the kind of
its spectrum, all its spectral parameters, the keys of its other functions and all
their parameters agree with the snapshot: same names, values equal up to `1e-5` of
their size, same free or fixed status, priors with the same parameters.  The kind of
the spatial functions and of the priors is missing from the list. -/
theorem C56_unchanged_partial (s t : Src κ) (hs : Distinct s) (ht : Distinct t) :
    compare (latchSource s) t = 0 ↔ Same s t :=
  (compare_facts s t hs ht).1

/-- C56 is violated: a source whose spatial distribution is replaced by one of another
kind, with the same parameters, is reported as unchanged: only the key of the
function and its parameters are compared. -/
theorem C56_spatial_violates :
    ∃ s t : Src ℕ, Distinct s ∧ Distinct t ∧
      (∀ f ∈ s.funcs, ∀ g ∈ t.funcs, f.1 = g.1 ∧ f.2.kind ≠ g.2.kind) ∧ s.funcs ≠ [] ∧
      t.funcs ≠ [] ∧ compare (latchSource s) t = 0 := by
  let p : Par ℕ := ⟨1, 1, true, none⟩
  refine ⟨⟨p, ⟨0, []⟩, [(1, ⟨10, [(5, p)]⟩)]⟩, ⟨p, ⟨0, []⟩, [(1, ⟨11, [(5, p)]⟩)]⟩,
    ⟨by simp, by simp [spatial]⟩, ⟨by simp, by simp [spatial]⟩, by simp, by simp, by simp, ?_⟩
  rw [C56_unchanged_partial _ _ ⟨by simp, by simp [spatial]⟩ ⟨by simp, by simp [spatial]⟩]
  have hp : SamePar p p := ⟨by simp [Close]; positivity, rfl, trivial⟩
  refine ⟨hp, rfl, fun n => by simp [SameOpt], rfl, fun n => ?_⟩
  by_cases h : n = 5
  · subst h; simpa [spatial, SameOpt, List.lookup] using hp
  · have : (n == 5) = false := by simpa using h
    simp [spatial, SameOpt, List.lookup, this]

/-- C56: `compare_latched` never fails on a snapshot of a model, and reports exactly
the changed sources, divided by whether they are in the given list; the sources that
were added are listed by whether their normalisation is free. -/
theorem C56_latched (old new : List (κ × Src κ)) (ho : IsModel old) (hn : IsModel new)
    (latched : List κ) :
    ∃ d, compareLatched (latchModel old) new latched = .ok d ∧
      (∀ n, n ∈ d.changedLatched ↔ n ∈ latched ∧ Changed old new n) ∧
      (∀ n, n ∈ d.changedUnlatched ↔ n ∉ latched ∧ Changed old new n) ∧
      (∀ n, n ∈ d.newFree ↔ ∃ t, Added old new n t ∧ t.norm.free = true) ∧
      (∀ n, n ∈ d.newFixed ↔ ∃ t, Added old new n t ∧ t.norm.free = false) ∧
      (d.latched = 0 ↔ d.changedLatched = []) ∧ (d.unlatched = 0 ↔ d.changedUnlatched = []) := by
  have hin : ∀ n, Changed old new n → n ∈ old.map Prod.fst := by
    rintro n (⟨h, _⟩ | ⟨s, t, h, _⟩)
    · exact h
    · exact key_mem h.1
  refine ⟨_, compareLatched_ok old new latched, ?_, ?_, ?_, ?_, ?_, ?_⟩
  · intro n
    simp only [List.mem_filter, decide_eq_true_eq]
    constructor
    · rintro ⟨h1, h2, h3⟩; exact ⟨h2, (st_changed ho hn h1).1 h3⟩
    · rintro ⟨h2, h3⟩; exact ⟨hin n h3, h2, (st_changed ho hn (hin n h3)).2 h3⟩
  · intro n
    simp only [List.mem_filter, decide_eq_true_eq]
    constructor
    · rintro ⟨h1, h2, h3⟩; exact ⟨h2, (st_changed ho hn h1).1 h3⟩
    · rintro ⟨h2, h3⟩; exact ⟨hin n h3, h2, (st_changed ho hn (hin n h3)).2 h3⟩
  · intro n
    simp only [List.mem_map, List.mem_filter, Added]
    constructor
    · rintro ⟨⟨k, t⟩, ⟨⟨h1, h2⟩, h3⟩, rfl⟩
      exact ⟨t, ⟨h1, by simpa using h2⟩, h3⟩
    · rintro ⟨t, ⟨h1, h2⟩, h3⟩
      exact ⟨(n, t), ⟨⟨h1, by simpa using h2⟩, h3⟩, rfl⟩
  · intro n
    simp only [List.mem_map, List.mem_filter, Added]
    constructor
    · rintro ⟨⟨k, t⟩, ⟨⟨h1, h2⟩, h3⟩, rfl⟩
      exact ⟨t, ⟨h1, by simpa using h2⟩, by simpa using h3⟩
    · rintro ⟨t, ⟨h1, h2⟩, h3⟩
      exact ⟨(n, t), ⟨⟨h1, by simpa using h2⟩, by simpa using h3⟩, rfl⟩
  · simp only [ors_zero, List.mem_map, List.mem_filter, List.filter_eq_nil_iff, decide_eq_true_eq]
    constructor
    · intro h n h1 h2; exact h2.2 (h _ ⟨n, ⟨h1, h2.1⟩, rfl⟩)
    · rintro h _ ⟨n, ⟨h1, h2⟩, rfl⟩
      by_contra hc; exact h n h1 ⟨h2, hc⟩
  · simp only [ors_zero, List.mem_map, List.mem_filter, List.filter_eq_nil_iff, decide_eq_true_eq]
    constructor
    · intro h n h1 h2; exact h2.2 (h _ ⟨n, ⟨h1, h2.1⟩, rfl⟩)
    · rintro h _ ⟨n, ⟨h1, h2⟩, rfl⟩
      by_contra hc; exact h n h1 ⟨h2, hc⟩

/-- C56 is violated: the status of a removed source says that a fixed source was
removed if it was free, and that a free source was removed if it was fixed. -/
theorem C56_removed_violates (old : List (κ × Src κ)) (ho : IsModel old) (n : κ) (s : Src κ)
    (h : (n, s) ∈ old) :
    compareSource (latchModel old) n none =
      .ok (if s.norm.free = true then fixedRemoved else freeRemoved) := by
  simp only [compareSource, find_latch, (mem_iff ho).1 h, Option.map_some, latchSource]
  cases s.norm.free <;> rfl

/-- C56 is violated: for a free source that was added, `free_source_added()` is false
and `free_source_removed()` is true, and likewise for a fixed one. -/
theorem C56_accessor_violates (old : List (κ × Src κ)) (n : κ) (hn : n ∉ old.map Prod.fst) (t : Src κ) :
    ∃ c, compareSource (latchModel old) n (some t) = .ok c ∧
      freeSourceAdded c = false ∧ fixedSourceAdded c = false ∧
      freeSourceRemoved c = t.norm.free ∧ fixedSourceRemoved c = !t.norm.free := by
  have hf : StdMap.find old n = none := StdMap.find_none.2 hn
  refine ⟨if t.norm.free then freeAdded else fixedAdded, ?_, ?_⟩
  · simp only [compareSource, find_latch, hf, Option.map_none]
  · cases t.norm.free <;> decide

/-- Every source agrees with itself. -/
theorem same_refl (s : Src κ) : Same s s := by
  have hc : ∀ a : ℝ, Close a a := fun a => by simp only [Close, sub_self, abs_zero]; positivity
  have hpp : ∀ q : Par κ, SamePar q q := fun q => by
    refine ⟨hc _, rfl, ?_⟩
    cases q.prior with
    | none => trivial
    | some a =>
      simp only [SamePrior]
      exact List.forall₂_same.2 fun x _ => ⟨rfl, hc _⟩
  have hl : ∀ l : List (κ × Par κ), SamePars l l := fun l n => by
    cases l.lookup n with
    | none => trivial
    | some q => exact hpp q
  exact ⟨hpp _, rfl, hl _, rfl, hl _⟩

theorem compareModel_fold (old : List (κ × Src κ)) : ∀ (m : List (κ × Src κ)) (acc : Nat × List κ),
    (∀ p ∈ m, StdMap.find old p.1 = some p.2 ∧ Distinct p.2) →
    m.foldlM (fun acc s => do
      let c ← compareSource (latchModel old) s.1 (some s.2)
      .ok (acc.1 ||| c, if c ≠ 0 then acc.2 ++ [s.1] else acc.2)) acc = Res.ok acc
  | [], acc, _ => by simp [pure, Res.pure_eq]
  | p :: m, acc, h => by
    rw [List.foldlM_cons]
    obtain ⟨h1, h2⟩ := h p (by simp)
    have hz : compare (latchSource p.2) p.2 = 0 :=
      ((compare_facts p.2 p.2 h2 h2).1).2 (same_refl _)
    have e : compareSource (latchModel old) p.1 (some p.2) = .ok 0 := by
      simp only [compareSource, find_latch, h1, Option.map_some, hz]
    rw [e]
    simp only [Res.bind_ok, Nat.or_zero, ne_eq, not_true_eq_false, if_false]
    exact compareModel_fold old m acc fun q hq => h q (List.mem_cons_of_mem _ hq)

/-- C56 is violated: comparing the whole model with the snapshot reports no change
when sources were removed and nothing else changed, whatever the number of removed
sources. -/
theorem C56_model_violates (old new : List (κ × Src κ)) (ho : IsModel old)
    (hsub : ∀ p ∈ new, p ∈ old) :
    compareModel (latchModel old) new = .ok (0, []) := by
  exact compareModel_fold old new (0, []) fun p hp =>
    ⟨(mem_iff ho).1 (hsub p hp), ho.2 _ _ (hsub p hp)⟩

/-! ### C57: the update a scan cache decides to make -/

theorem ne_nil_iff {α : Type} (l : List α) : l ≠ [] ↔ ∃ n, n ∈ l :=
  ⟨fun h => List.exists_mem_of_ne_nil _ h, fun ⟨_, h⟩ => List.ne_nil_of_mem h⟩

theorem hit_part (old new : List (κ × Src κ)) (p : κ → Bool) (m : Nat) :
    hit (ors (((old.map Prod.fst).filter p).map (st old new))) m = true ↔
      ∃ n, n ∈ old.map Prod.fst ∧ p n = true ∧ hit (st old new n) m = true := by
  rw [hit_ors]
  constructor
  · rintro ⟨x, hx, hh⟩
    obtain ⟨n, hn, rfl⟩ := List.mem_map.1 hx
    exact ⟨n, (List.mem_filter.1 hn).1, (List.mem_filter.1 hn).2, hh⟩
  · rintro ⟨n, h1, h2, h3⟩
    exact ⟨_, List.mem_map.2 ⟨n, List.mem_filter.2 ⟨h1, h2⟩, rfl⟩, h3⟩

/-- A bit that removals do not set is set exactly if it is set for a source that is in
both models. -/
theorem hit_part_both {old new : List (κ × Src κ)} (ho : IsModel old) (hn : IsModel new)
    (p : κ → Bool) (m : Nat) (h1 : hit freeRemoved m = false) (h2 : hit fixedRemoved m = false) :
    hit (ors (((old.map Prod.fst).filter p).map (st old new))) m = true ↔
      ∃ n s t, p n = true ∧ Both old new n s t ∧ hit (compare (latchSource s) t) m = true := by
  rw [hit_part]
  constructor
  · rintro ⟨n, k1, k2, hh⟩
    rcases st_cases ho hn k1 with ⟨s, _, _, h5⟩ | ⟨s, t, h4, h5⟩
    · rw [h5] at hh
      cases hf : s.norm.free <;> rw [hf] at hh <;> simp [h1, h2] at hh
    · rw [h5] at hh; exact ⟨n, s, t, k2, h4, hh⟩
  · rintro ⟨n, s, t, k2, h4, hh⟩
    exact ⟨n, key_mem h4.1, k2, by rw [st_both ho hn h4]; exact hh⟩

/-- C57: the cache is rebuilt exactly if a free source was added, or a source without
template was freed. -/
theorem C57_rebuild (old new : List (κ × Src κ)) (ho : IsModel old) (hn : IsModel new)
    (templates : List κ) :
    ∃ a ch, findAction (latchModel old) new templates = .ok (a, ch) ∧
      (hit a rebuild = true ↔
        (∃ n t, Added old new n t ∧ t.norm.free = true) ∨
        ∃ n s t, n ∉ templates ∧ Both old new n s t ∧ s.norm.free = false ∧ t.norm.free = true) := by
  obtain ⟨d, e, -, -, h3, -, -, -⟩ := C56_latched old new ho hn templates
  refine ⟨actionOf d, d.changedLatched, by simp [findAction, e], ?_⟩
  have hfree : d.newFree ≠ [] ↔ ∃ n t, Added old new n t ∧ t.norm.free = true := by
    rw [ne_nil_iff]
    exact ⟨fun ⟨n, hn⟩ => ⟨n, (h3 n).1 hn⟩, fun ⟨n, t, h⟩ => ⟨n, (h3 n).2 ⟨t, h⟩⟩⟩
  have e' := compareLatched_ok old new templates
  rw [e] at e'
  have hu : hit d.unlatched sourceFreed = true ↔
      ∃ n s t, n ∉ templates ∧ Both old new n s t ∧ s.norm.free = false ∧ t.norm.free = true := by
    rw [(Res.ok.inj e')]
    rw [hit_part_both ho hn _ _ (by decide) (by decide)]
    constructor
    · rintro ⟨n, s, t, h2, h4, hh⟩
      rw [(compare_facts s t (ho.2 _ _ h4.1) (hn.2 _ _ h4.2)).2.1] at hh
      exact ⟨n, s, t, by simpa using h2, h4, hh.1, hh.2⟩
    · rintro ⟨n, s, t, h2, h4, h5, h6⟩
      refine ⟨n, s, t, by simpa using h2, h4, ?_⟩
      rw [(compare_facts s t (ho.2 _ _ h4.1) (hn.2 _ _ h4.2)).2.1]
      exact ⟨h5, h6⟩
  rw [← hfree, ← hu]
  simp only [actionOf]
  by_cases hc : d.newFree ≠ [] ∨ hit d.unlatched sourceFreed = true
  · rw [if_pos hc]; simp only [hc, iff_true]; decide
  · rw [if_neg hc]
    simp only [hc, iff_false, Bool.not_eq_true, hit_or]
    split <;> split <;> split <;> split <;> decide

theorem action_bits (f m r p : Bool) :
    let a := (if f then updateFixed ||| refactor else 0) ||| (if m then updateFree ||| refactor else 0) |||
      (if r then refactor else 0) ||| (if p then remakePrior else 0)
    hit a updateFixed = f ∧ hit a updateFree = m ∧ hit a refactor = (f || m || r) ∧
      hit a remakePrior = p := by
  revert f m r p; decide

/-- C57, as long as the types of the sources with templates stay the same: if the cache
is not rebuilt, then
the fixed part is recomputed exactly if a source without template was added, removed
or changed; templates are recomputed exactly if a parameter other than the
normalisation changed in a source with a template; the model is refactored if either
happened or a normalisation with a template changed in value or status; and the prior
is remade exactly if the prior of such a normalisation changed. -/
theorem C57_action_partial (old new : List (κ × Src κ)) (ho : IsModel old) (hn : IsModel new)
    (templates : List κ)
    (htype : ∀ n s t, n ∈ templates → Both old new n s t → SameSpecType s t ∧ SameSpatType s t)
    (a : Nat) (ch : List κ) (h : findAction (latchModel old) new templates = .ok (a, ch))
    (hr : hit a rebuild = false) :
    (hit a updateFixed = true ↔ (∃ n t, Added old new n t) ∨ ∃ n, n ∉ templates ∧ Changed old new n) ∧
    (hit a updateFree = true ↔ ∃ n s t, n ∈ templates ∧ Both old new n s t ∧
      ¬ (SamePars s.spec.pars t.spec.pars ∧ SamePars (spatial s) (spatial t))) ∧
    (hit a refactor = true ↔ hit a updateFixed = true ∨ hit a updateFree = true ∨
      ∃ n s t, n ∈ templates ∧ Both old new n s t ∧
        (¬ Close s.norm.tv t.norm.tv ∨ s.norm.free ≠ t.norm.free)) ∧
    (hit a remakePrior = true ↔ ∃ n s t, n ∈ templates ∧ Both old new n s t ∧
      ¬ SamePrior s.norm.prior t.norm.prior) ∧
    (∀ n, n ∈ ch ↔ n ∈ templates ∧ Changed old new n) := by
  obtain ⟨d, e, h1, h2, h3, h4, h5, h6⟩ := C56_latched old new ho hn templates
  have e' := compareLatched_ok old new templates
  rw [e] at e'
  have hd := Res.ok.inj e'
  simp only [findAction, e, Res.bind_ok, Res.ok.injEq, Prod.mk.injEq] at h
  obtain ⟨ha, hch⟩ := h
  have hnr : ¬ (d.newFree ≠ [] ∨ hit d.unlatched sourceFreed = true) := by
    intro hc
    rw [← ha, actionOf, if_pos hc] at hr
    exact absurd hr (by decide)
  have A : hit d.latched modelChangedMask = true ↔ ∃ n s t, n ∈ templates ∧ Both old new n s t ∧
      ¬ (SamePars s.spec.pars t.spec.pars ∧ SamePars (spatial s) (spatial t)) := by
    rw [hd, hit_part_both ho hn _ _ (by decide) (by decide)]
    constructor
    · rintro ⟨n, s, t, k1, k2, hh⟩
      rw [(compare_facts s t (ho.2 _ _ k2.1) (hn.2 _ _ k2.2)).2.2.1] at hh
      exact ⟨n, s, t, by simpa using k1, k2, by tauto⟩
    · rintro ⟨n, s, t, k1, k2, hh⟩
      refine ⟨n, s, t, by simpa using k1, k2, ?_⟩
      rw [(compare_facts s t (ho.2 _ _ k2.1) (hn.2 _ _ k2.2)).2.2.1]
      have := htype n s t k1 k2
      tauto
  have N : ∀ (m : Nat) (P : Src κ → Src κ → Prop), hit freeRemoved m = false → hit fixedRemoved m = false →
      (∀ n s t, n ∈ templates → Both old new n s t →
        (hit (compare (latchSource s) t) m = true ↔ P s t)) →
      (hit d.latched m = true ↔ ∃ n s t, n ∈ templates ∧ Both old new n s t ∧ P s t) := by
    intro m P hm1 hm2 hP
    rw [hd, hit_part_both ho hn _ _ hm1 hm2]
    constructor
    · rintro ⟨n, s, t, k1, k2, hh⟩
      exact ⟨n, s, t, by simpa using k1, k2, (hP n s t (by simpa using k1) k2).1 hh⟩
    · rintro ⟨n, s, t, k1, k2, hh⟩
      exact ⟨n, s, t, by simpa using k1, k2, (hP n s t k1 k2).2 hh⟩
  have V := N valueChanged (fun s t => ¬ Close s.norm.tv t.norm.tv) (by decide) (by decide)
    fun n s t k1 k2 => ((compare_facts s t (ho.2 _ _ k2.1) (hn.2 _ _ k2.2)).2.2.2
      (htype n s t k1 k2).1 (htype n s t k1 k2).2).1
  have S := N statusChanged (fun s t => s.norm.free ≠ t.norm.free) (by decide) (by decide)
    fun n s t k1 k2 => ((compare_facts s t (ho.2 _ _ k2.1) (hn.2 _ _ k2.2)).2.2.2
      (htype n s t k1 k2).1 (htype n s t k1 k2).2).2.1
  have P := N priorChanged (fun s t => ¬ SamePrior s.norm.prior t.norm.prior) (by decide) (by decide)
    fun n s t k1 k2 => ((compare_facts s t (ho.2 _ _ k2.1) (hn.2 _ _ k2.2)).2.2.2
      (htype n s t k1 k2).1 (htype n s t k1 k2).2).2.2
  have F : (d.newFixed ≠ [] ∨ d.unlatched ≠ 0) ↔
      (∃ n t, Added old new n t) ∨ ∃ n, n ∉ templates ∧ Changed old new n := by
    rw [ne_nil_iff, ne_eq, h6, ← ne_eq, ne_nil_iff]
    have hnf : ∀ n t, Added old new n t → t.norm.free = false := by
      intro n t hA
      by_contra hc
      exact hnr (Or.inl ((ne_nil_iff _).2 ⟨n, (h3 n).2 ⟨t, hA, by simpa using hc⟩⟩))
    constructor
    · rintro (⟨n, hm⟩ | ⟨n, hm⟩)
      · obtain ⟨t, hA, _⟩ := (h4 n).1 hm; exact Or.inl ⟨n, t, hA⟩
      · exact Or.inr ⟨n, (h2 n).1 hm⟩
    · rintro (⟨n, t, hA⟩ | ⟨n, hm⟩)
      · exact Or.inl ⟨n, (h4 n).2 ⟨t, hA, hnf n t hA⟩⟩
      · exact Or.inr ⟨n, (h2 n).2 hm⟩
  have B := action_bits (decide (d.newFixed ≠ [] ∨ d.unlatched ≠ 0)) (hit d.latched modelChangedMask)
    (decide (hit d.latched statusChanged = true ∨ hit d.latched valueChanged = true))
    (hit d.latched priorChanged)
  have ea : a = (if decide (d.newFixed ≠ [] ∨ d.unlatched ≠ 0) = true then updateFixed ||| refactor else 0) |||
      (if hit d.latched modelChangedMask = true then updateFree ||| refactor else 0) |||
      (if decide (hit d.latched statusChanged = true ∨ hit d.latched valueChanged = true) = true
        then refactor else 0) |||
      (if hit d.latched priorChanged = true then remakePrior else 0) := by
    rw [← ha, actionOf, if_neg hnr]
    simp only [decide_eq_true_eq]
  simp only [] at B
  rw [← ea] at B
  obtain ⟨b1, b2, b3, b4⟩ := B
  refine ⟨?_, ?_, ?_, ?_, ?_⟩
  · rw [b1, decide_eq_true_eq, F]
  · rw [b2, A]
  · rw [b3, Bool.or_eq_true, Bool.or_eq_true, ← b1, ← b2, decide_eq_true_eq, S, V, or_assoc]
    constructor
    · rintro (h | h | ⟨n, s, t, k1, k2, k3⟩ | ⟨n, s, t, k1, k2, k3⟩)
      · exact Or.inl h
      · exact Or.inr (Or.inl h)
      · exact Or.inr (Or.inr ⟨n, s, t, k1, k2, Or.inr k3⟩)
      · exact Or.inr (Or.inr ⟨n, s, t, k1, k2, Or.inl k3⟩)
    · rintro (h | h | ⟨n, s, t, k1, k2, k3 | k3⟩)
      · exact Or.inl h
      · exact Or.inr (Or.inl h)
      · exact Or.inr (Or.inr (Or.inr ⟨n, s, t, k1, k2, k3⟩))
      · exact Or.inr (Or.inr (Or.inl ⟨n, s, t, k1, k2, k3⟩))
  · rw [b4, P]
  · intro n; rw [← hch, h1]

/-- No action is taken if no bit that is looked at is set. -/
theorem action_zero (old new : List (κ × Src κ)) (templates : List κ)
    (hkeys : ∀ n ∈ new.map Prod.fst, n ∈ old.map Prod.fst)
    (hst : ∀ n ∈ old.map Prod.fst, (n ∉ templates → st old new n = 0) ∧
      ∀ m ∈ [modelChangedMask, statusChanged, valueChanged, priorChanged],
        hit (st old new n) m = false) :
    findAction (latchModel old) new templates = .ok (0,
      (old.map Prod.fst).filter (fun n => n ∈ templates ∧ st old new n ≠ 0)) := by
  have hp : ∀ (p : κ → Bool) (m : Nat), (∀ n ∈ old.map Prod.fst, p n = true →
      hit (st old new n) m = false) →
      hit (ors (((old.map Prod.fst).filter p).map (st old new))) m = false := by
    intro p m h
    rw [← Bool.not_eq_true, hit_part]
    rintro ⟨n, h1, h2, h3⟩
    rw [h n h1 h2] at h3; cases h3
  have hu : ors (((old.map Prod.fst).filter (· ∉ templates)).map (st old new)) = 0 := by
    rw [ors_zero]
    intro x hx
    obtain ⟨n, hn', rfl⟩ := List.mem_map.1 hx
    obtain ⟨k1, k2⟩ := List.mem_filter.1 hn'
    exact (hst n k1).1 (by simpa using k2)
  have hrest : (new.filter fun s => !(old.map Prod.fst).contains s.1) = [] := by
    rw [List.filter_eq_nil_iff]
    rintro ⟨n, t⟩ ht
    have := hkeys n (key_mem ht)
    simp only [Bool.not_eq_true', Bool.not_eq_false, List.contains_iff_mem]
    exact this
  simp only [findAction, compareLatched_ok, Res.bind_ok, hu, hrest]
  rw [actionOf]
  simp only [List.filter_nil, List.map_nil, ne_eq, not_true_eq_false, hit_zero, Bool.false_eq_true,
    or_self, if_false]
  rw [hp _ modelChangedMask fun n k _ => (hst n k).2 _ (by simp),
    hp _ statusChanged fun n k _ => (hst n k).2 _ (by simp),
    hp _ valueChanged fun n k _ => (hst n k).2 _ (by simp),
    hp _ priorChanged fun n k _ => (hst n k).2 _ (by simp)]
  rfl

/-- C57 is violated: the cache decides that nothing has to be done when sources with
templates got a spectrum of another kind, as long as their normalisations and spatial
parameters stay and nothing else changed: the templates then belong to the old
spectra. -/
theorem C57_type_violates (old new : List (κ × Src κ)) (ho : IsModel old) (hn : IsModel new)
    (templates : List κ) (hkeys : old.map Prod.fst = new.map Prod.fst)
    (hch : ∀ n s t, Both old new n s t → Same s t ∨
      (n ∈ templates ∧ s.spec.kind ≠ t.spec.kind ∧ SamePar s.norm t.norm ∧
        s.funcs.map Prod.fst = t.funcs.map Prod.fst ∧ SamePars (spatial s) (spatial t))) :
    ∃ ch, findAction (latchModel old) new templates = .ok (0, ch) := by
  have hst : ∀ n ∈ old.map Prod.fst, (n ∉ templates → st old new n = 0) ∧
      ∀ m ∈ [modelChangedMask, statusChanged, valueChanged, priorChanged],
        hit (st old new n) m = false := by
    intro n hin
    rcases st_cases ho hn hin with ⟨s, _, h2, _⟩ | ⟨s, t, h4, h5⟩
    · rw [hkeys] at hin; exact absurd hin h2
    · rw [h5]
      rcases hch n s t h4 with hS | ⟨h1, h2, h3, h6, h7⟩
      · rw [((compare_facts s t (ho.2 _ _ h4.1) (hn.2 _ _ h4.2)).1).2 hS]
        exact ⟨fun _ => rfl, fun m _ => hit_zero m⟩
      · refine ⟨fun h => absurd h1 h, ?_⟩
        have hz := ((compareNorm_facts s.norm t.norm (!s.norm.free)).1).2 h3
        have G := comparePars_facts spatialOffset spatialType spatialTypeFree spatialTypeFixed
          spat_bits spat_type_bits (s.funcs.map Prod.fst) (t.funcs.map Prod.fst)
          (putAll [] (spatial s)) (putAll [] (spatial t)) (!s.norm.free)
        rw [names_iff _ _ (ho.2 _ _ h4.1).2 (hn.2 _ _ h4.2).2] at G
        have hg := G.zero.2 ⟨⟨h6, names_of_pars h7⟩,
          (pars_iff _ _ (ho.2 _ _ h4.1).2 (hn.2 _ _ h4.2).2 (names_of_pars h7)).2 h7⟩
        have ec : compare (latchSource s) t =
            specType ||| (if (!s.norm.free) then specTypeFixed else specTypeFree) := by
          simp only [compare, latchSource, spat_fold]
          simp only [spatial] at hg
          rw [hz, hg, comparePars, if_pos (Or.inl h2)]
          simp
        intro m hm
        rw [ec]
        cases s.norm.free <;> revert m <;> decide
  exact ⟨_, action_zero old new templates (by rw [hkeys]; exact fun n h => h) hst⟩

/-- C57 is violated: the cache decides that nothing has to be done when a source with a
template was removed from the model and nothing else changed: the scan goes on with
its template. -/
theorem C57_removed_violates (old new : List (κ × Src κ)) (ho : IsModel old) (hn : IsModel new)
    (templates : List κ) (hsub : ∀ p ∈ new, p ∈ old)
    (hrem : ∀ n, Removed old new n → n ∈ templates) :
    ∃ ch, findAction (latchModel old) new templates = .ok (0, ch) := by
  have hsame : ∀ s : Src κ, Distinct s → compare (latchSource s) s = 0 := by
    intro s hs
    exact ((compare_facts s s hs hs).1).2 (same_refl _)
  have hst : ∀ n ∈ old.map Prod.fst, (n ∉ templates → st old new n = 0) ∧
      ∀ m ∈ [modelChangedMask, statusChanged, valueChanged, priorChanged],
        hit (st old new n) m = false := by
    intro n hin
    rcases st_cases ho hn hin with ⟨s, _, h2, h3⟩ | ⟨s, t, h4, h5⟩
    · refine ⟨fun h => absurd (hrem n ⟨hin, h2⟩) h, ?_⟩
      rw [h3]
      cases s.norm.free <;> decide
    · have : t = s := by
        have := (mem_iff ho).1 (hsub _ h4.2)
        rw [(mem_iff ho).1 h4.1] at this
        exact (Option.some.inj this).symm
      subst this
      rw [h5, hsame t (hn.2 _ _ h4.2)]
      exact ⟨fun _ => rfl, fun m _ => hit_zero m⟩
  refine ⟨_, action_zero old new templates (fun n h => ?_) hst⟩
  obtain ⟨q, hq, rfl⟩ := List.mem_map.1 h
  exact key_mem (hsub _ hq)

/-! ### The hypotheses can be met -/

/-- A free parameter without prior. -/
private def exPar (v : ℝ) (free : Bool) : Par ℕ := ⟨v, 1, free, none⟩

/-- A source with one spectral and one spatial parameter. -/
private def exSrc (v i : ℝ) (free : Bool) : Src ℕ :=
  ⟨exPar v free, ⟨0, [(3, exPar i true)]⟩, [(1, ⟨10, [(5, exPar 83 false)]⟩)]⟩

private theorem exDistinct (v i : ℝ) (f : Bool) : Distinct (exSrc v i f) :=
  ⟨by simp [exSrc], by simp [exSrc, spatial]⟩

private theorem exModel (v i w j : ℝ) (f g : Bool) :
    IsModel [(1, exSrc v i f), (2, exSrc w j g)] := by
  refine ⟨by simp, ?_⟩
  intro n s h
  simp only [List.mem_cons, Prod.mk.injEq, List.not_mem_nil, or_false] at h
  rcases h with ⟨_, rfl⟩ | ⟨_, rfl⟩ <;> exact exDistinct _ _ _

/-- Two sources that agree and two that do not. -/
example : compare (latchSource (exSrc 1 2 true)) (exSrc 1 2 true) = 0 ∧
    compare (latchSource (exSrc 1 2 true)) (exSrc 2 2 true) ≠ 0 := by
  rw [ne_eq, C56_unchanged_partial _ _ (exDistinct _ _ _) (exDistinct _ _ _),
    C56_unchanged_partial _ _ (exDistinct _ _ _) (exDistinct _ _ _)]
  refine ⟨same_refl _, fun h => ?_⟩
  have := h.1.1
  norm_num [Close, exSrc, exPar] at this

/-- A fixed source is freed: the cache of a scan with a template for the other source
is rebuilt. -/
example : ∃ a ch, findAction (latchModel [(1, exSrc 1 2 true), (2, exSrc 1 2 false)])
      [(1, exSrc 1 2 true), (2, exSrc 1 2 true)] [1] = .ok (a, ch) ∧ hit a rebuild = true := by
  obtain ⟨a, ch, h1, h2⟩ := C57_rebuild _ _ (exModel 1 2 1 2 true false) (exModel 1 2 1 2 true true) [1]
  exact ⟨a, ch, h1, h2.2 (Or.inr ⟨2, exSrc 1 2 false, exSrc 1 2 true, by simp,
    ⟨by simp, by simp⟩, rfl, rfl⟩)⟩

/-- The normalisation of the source with a template changes: no rebuild, the model is
refactored and neither part is computed again. -/
example : ∃ a ch, findAction (latchModel [(1, exSrc 1 2 true), (2, exSrc 1 2 false)])
      [(1, exSrc 4 2 true), (2, exSrc 1 2 false)] [1] = .ok (a, ch) ∧ hit a rebuild = false ∧
      hit a refactor = true ∧ hit a updateFixed = false := by
  have ho := exModel 1 2 1 2 true false
  have hn := exModel 4 2 1 2 true false
  obtain ⟨a, ch, h1, h2⟩ := C57_rebuild _ _ ho hn [1]
  have hr : hit a rebuild = false := by
    rw [← Bool.not_eq_true, h2]
    rintro (⟨n, t, ⟨h3, h4⟩, _⟩ | ⟨n, s, t, h3, ⟨h4, h5⟩, h6, h7⟩)
    · simp only [List.mem_cons, Prod.mk.injEq, List.not_mem_nil, or_false] at h3
      simp only [List.map_cons, List.map_nil, List.mem_cons, List.not_mem_nil, or_false] at h4
      tauto
    · simp only [List.mem_cons, Prod.mk.injEq, List.not_mem_nil, or_false] at h3 h4 h5
      rcases h5 with ⟨h8, rfl⟩ | ⟨h8, rfl⟩
      · exact h3 h8
      · cases h7
  have key := C57_action_partial _ _ ho hn [1] (by
    intro n s t hn h
    simp only [Both, List.mem_cons, Prod.mk.injEq, List.not_mem_nil, or_false] at h
    rcases h with ⟨⟨_, rfl⟩ | ⟨_, rfl⟩, ⟨_, rfl⟩ | ⟨_, rfl⟩⟩ <;>
      exact ⟨⟨rfl, fun n => Iff.rfl⟩, rfl, fun n => Iff.rfl⟩) a ch h1 hr
  refine ⟨a, ch, h1, hr, key.2.2.1.2 (Or.inr (Or.inr ⟨1, exSrc 1 2 true, exSrc 4 2 true, by simp,
    ⟨by simp, by simp⟩, Or.inl ?_⟩)), ?_⟩
  · norm_num [Close, exSrc, exPar, Par.tv]
  · rw [← Bool.not_eq_true, key.1]
    rintro (⟨n, t, h3, h4⟩ | ⟨n, h3, ⟨h4, h5⟩ | ⟨s, t, ⟨h4, h5⟩, h6⟩⟩)
    · simp only [List.mem_cons, Prod.mk.injEq, List.not_mem_nil, or_false] at h3
      simp only [List.map_cons, List.map_nil, List.mem_cons, List.not_mem_nil, or_false] at h4
      tauto
    · exact h5 (by simpa using h4)
    · simp only [List.mem_cons, Prod.mk.injEq, List.not_mem_nil, or_false] at h3 h4 h5
      rcases h4 with ⟨h8, rfl⟩ | ⟨h8, rfl⟩
      · exact h3 h8
      · rcases h5 with ⟨h9, rfl⟩ | ⟨h9, rfl⟩
        · exact h3 h9
        · exact h6 (same_refl _)

end Verif.Snap
