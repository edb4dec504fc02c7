import Verif.EvRead.Model
import Verif.EvRead.Spec
import Verif.Cuts.Props
import Mathlib.Data.Nat.Bitwise
import Mathlib.Data.Nat.Log
import Mathlib.Tactic.Linarith
/-
Lemmas on the reading of events.
-/
set_option linter.unusedSectionVars false
set_option linter.unusedSimpArgs false
set_option linter.unusedVariables false

namespace Verif.EvRead
open Verif.Cuts (Name Cut)

theorem floor_log (x : Nat) (hx : x ≠ 0) : ⌊Real.log x / Real.log 2⌋.toNat = Nat.log 2 x := by
  have h2 : (0 : ℝ) < Real.log 2 := Real.log_pos (by norm_num)
  have hxp : (0 : ℝ) < x := by exact_mod_cast Nat.pos_of_ne_zero hx
  have h1 : (2 : ℝ) ^ Nat.log 2 x ≤ x := by exact_mod_cast Nat.pow_log_le_self 2 hx
  have h3 : (x : ℝ) < 2 ^ (Nat.log 2 x + 1) := by
    exact_mod_cast Nat.lt_pow_succ_log_self (by norm_num) x
  have hf : ⌊Real.log x / Real.log 2⌋ = (Nat.log 2 x : ℤ) := by
    rw [Int.floor_eq_iff]
    constructor
    · rw [le_div_iff₀ h2]
      have := Real.log_le_log (by positivity) h1
      rw [Real.log_pow] at this
      simpa using this
    · rw [div_lt_iff₀ h2]
      have := Real.log_lt_log hxp h3
      rw [Real.log_pow] at this
      push_cast at this
      simpa using this
  rw [hf]
  simp

theorem topBit_ok {x : Nat} (hx : x ≠ 0) : topBit x = .ok (Nat.log 2 x) := by
  unfold topBit
  rw [if_neg hx, floor_log x hx]

theorem log_highest {x : Nat} (hx : x ≠ 0) :
    x.testBit (Nat.log 2 x) = true ∧ ∀ j, x.testBit j = true → j ≤ Nat.log 2 x := by
  refine ⟨Nat.testBit_of_two_pow_le_and_two_pow_add_one_gt (Nat.pow_log_le_self 2 hx)
    (Nat.lt_pow_succ_log_self (by norm_num) x), fun j hj => ?_⟩
  by_contra h
  have : x < 2 ^ j := lt_of_lt_of_le (Nat.lt_pow_succ_log_self (by norm_num) x)
    (Nat.pow_le_pow_right (by norm_num) (by omega))
  rw [Nat.testBit_lt_two_pow this] at hj
  cases hj

theorem common_iff (a b k : Nat) : Spec.Common a b k ↔ (a &&& b).testBit k = true := by
  unfold Spec.Common
  rw [Nat.testBit_and, Bool.and_eq_true]

theorem rowType_iff (mask : Nat) (ht : Bool) (r : Row) (t : Nat) :
    rowType mask ht r = .ok t ↔ Spec.TypeOf ht mask r t := by
  unfold rowType Spec.TypeOf
  cases ht with
  | false => simp [eq_comm]
  | true =>
    simp only [if_true]
    simp only [common_iff]
    by_cases hx : r.type &&& mask = 0
    · simp [hx, topBit]
    · rw [topBit_ok hx]
      obtain ⟨h1, h2⟩ := log_highest hx
      constructor
      · intro h; cases h; exact ⟨h1, h2⟩
      · rintro ⟨ha, hb⟩
        rw [le_antisymm (hb _ h1) (h2 _ ha)]

theorem rowType_ub (mask : Nat) (r : Row) (h : ∀ k, ¬ Spec.Common r.type mask k) :
    rowType mask true r = .ub := by
  simp only [rowType, if_true]
  have : r.type &&& mask = 0 := by
    apply Nat.eq_of_testBit_eq
    intro i
    have := h i
    rw [common_iff] at this
    simpa using this
  rw [this, topBit, if_pos rfl]

theorem efficiency_iff (lt : ℝ → ℝ) (r : Row) (o : Option Irf) (e : ℝ) :
    efficiency lt r o = .ok e ↔ ∃ irf, o = some irf ∧ Spec.EffOf irf lt r e := by
  cases o with
  | none => simp [efficiency]
  | some irf =>
    obtain ⟨id, eff⟩ := irf
    cases eff with
    | none => simp [efficiency, Spec.EffOf, eq_comm]
    | some f =>
      simp only [efficiency, Spec.EffOf]
      by_cases h : f r.energy (lt r.time) r.time < 0
      · rw [if_pos h]
        constructor
        · intro h'; cases h'
        · rintro ⟨irf, hi, h' | ⟨g, hg, he, h0⟩⟩
          · cases hi; cases h'.1
          · cases hi; cases hg; subst he; linarith
      · rw [if_neg h]
        constructor
        · intro h'; cases h'
          exact ⟨_, rfl, Or.inr ⟨f, rfl, rfl, not_lt.1 h⟩⟩
        · rintro ⟨irf, hi, h' | ⟨g, hg, he, h0⟩⟩
          · cases hi; cases h'.1
          · cases hi; cases hg; rw [he]

theorem readRow_iff {resp : Resp} (hd : resp.useEdisp = false) (lt : ℝ → ℝ) (mask : Nat) (ht : Bool)
    (r : Row) (e : Ev) :
    readRow resp lt mask ht r = .ok e ↔ Spec.ReadAs (respPtr resp) lt ht mask r e := by
  unfold readRow
  constructor
  · intro h
    obtain ⟨t, h1, h⟩ := Res.bind_eq_ok.1 h
    obtain ⟨x, h2, h⟩ := Res.bind_eq_ok.1 h
    rw [hd] at h
    simp only [Bool.false_eq_true, if_false] at h
    cases h
    exact ⟨rfl, rfl, rfl, rfl, rfl, rfl, (rowType_iff ..).1 h1, (efficiency_iff ..).1 h2⟩
  · intro h
    rw [(rowType_iff mask ht r e.type).2 h.type, Res.bind_ok,
      (efficiency_iff lt r (respPtr resp e.type) e.efficiency).2 h.eff, Res.bind_ok, hd]
    simp only [Bool.false_eq_true, if_false]
    rw [← h.ra, ← h.dec, ← h.energy, ← h.time, ← h.zenith, ← h.cls]

theorem readRows_iff {resp : Resp} (hd : resp.useEdisp = false) (lt : ℝ → ℝ) (mask : Nat)
    (ht : Bool) (keep : Ev → Bool) (rows : List Row) (evs evs' : List Ev) :
    readRows resp lt mask ht keep rows evs = (evs', .ok ()) ↔
      ∃ es, List.Forall₂ (Spec.ReadAs (respPtr resp) lt ht mask) rows es ∧
        evs' = evs ++ es.filter keep := by
  induction rows generalizing evs with
  | nil =>
    simp only [readRows]
    constructor
    · intro h; cases h; exact ⟨[], List.Forall₂.nil, by simp⟩
    · rintro ⟨es, h, rfl⟩; cases h; simp
  | cons r rs ih =>
    simp only [readRows]
    cases hr : readRow resp lt mask ht r with
    | ok e =>
      simp only
      rw [ih]
      have he := (readRow_iff hd lt mask ht r e).1 hr
      constructor
      · rintro ⟨es, h, rfl⟩
        refine ⟨e :: es, List.Forall₂.cons he h, ?_⟩
        by_cases hk : keep e = true
        · rw [if_pos hk, List.filter_cons_of_pos hk]; simp
        · rw [if_neg hk, List.filter_cons_of_neg hk]
      · rintro ⟨es, h, rfl⟩
        cases h with
        | cons h1 h2 =>
          rename_i e' es'
          have := (readRow_iff hd lt mask ht r e').2 h1
          rw [hr] at this; cases this
          refine ⟨es', h2, ?_⟩
          by_cases hk : keep e = true
          · rw [if_pos hk, List.filter_cons_of_pos hk]; simp
          · rw [if_neg hk, List.filter_cons_of_neg hk]
    | throws =>
      constructor
      · intro h; cases h
      · rintro ⟨es, h, rfl⟩
        cases h with
        | cons h1 h2 =>
          have := (readRow_iff hd lt mask ht r _).2 h1
          rw [hr] at this; cases this
    | ub =>
      constructor
      · intro h; cases h
      · rintro ⟨es, h, rfl⟩
        cases h with
        | cons h1 h2 =>
          have := (readRow_iff hd lt mask ht r _).2 h1
          rw [hr] at this; cases this

theorem readRows_append (resp : Resp) (lt : ℝ → ℝ) (mask : Nat) (ht : Bool) (keep : Ev → Bool)
    (xs ys : List Row) (evs evs' : List Ev)
    (h : readRows resp lt mask ht keep xs evs = (evs', .ok ())) :
    readRows resp lt mask ht keep (xs ++ ys) evs = readRows resp lt mask ht keep ys evs' := by
  induction xs generalizing evs with
  | nil => simp only [readRows] at h; cases h; rfl
  | cons r rs ih =>
    simp only [readRows, List.cons_append] at h ⊢
    cases hr : readRow resp lt mask ht r with
    | ok e => rw [hr] at h; exact ih _ h
    | throws => rw [hr] at h; cases h
    | ub => rw [hr] at h; cases h

/-! ### Loading -/

theorem addIrf_find (lib : Lib) (types : List Nat) (ns : List Name) (m : List (Nat × Option Irf))
    (hm : StdMap.Sorted m) (k : Nat) :
    StdMap.Sorted (ns.foldl (addIrf lib types) m) ∧
    ((types = [] ∨ k ∈ types) → (∃ n ∈ ns, (lib.create n).id = k) →
      ∃ n ∈ ns, (lib.create n).id = k ∧
        StdMap.find (ns.foldl (addIrf lib types) m) k = some (some (lib.create n))) ∧
    (¬ ((types = [] ∨ k ∈ types) ∧ ∃ n ∈ ns, (lib.create n).id = k) →
      StdMap.find (ns.foldl (addIrf lib types) m) k = StdMap.find m k) := by
  induction ns using List.reverseRecOn with
  | nil => exact ⟨hm, fun _ ⟨n, hn, _⟩ => (by cases hn), fun _ => rfl⟩
  | append_singleton ns x ih =>
    obtain ⟨h1, h2, h3⟩ := ih
    rw [List.foldl_append]
    simp only [List.foldl_cons, List.foldl_nil]
    generalize ns.foldl (addIrf lib types) m = m' at h1 h2 h3
    unfold addIrf
    by_cases hs : types = [] ∨ 0 < types.count (lib.create x).id
    · rw [if_pos hs]
      have hs' : types = [] ∨ (lib.create x).id ∈ types := by
        rcases hs with hs | hs
        · exact Or.inl hs
        · exact Or.inr (List.count_pos_iff.1 hs)
      refine ⟨StdMap.sorted_put h1 _ _, ?_, ?_⟩
      · intro ht ⟨n, hn, hk⟩
        rw [StdMap.find_put h1]
        by_cases hx : (lib.create x).id = k
        · exact ⟨x, by simp, hx, by simp [hx]⟩
        · have : n ∈ ns := by
            rcases List.mem_append.1 hn with h | h
            · exact h
            · rw [List.mem_singleton.1 h] at hk; exact absurd hk hx
          obtain ⟨n', hn', hk', hf⟩ := h2 ht ⟨n, this, hk⟩
          exact ⟨n', by simp [hn'], hk', by simp [Ne.symm hx, hx, hf]⟩
      · intro hn
        rw [StdMap.find_put h1]
        have hx : (lib.create x).id ≠ k := by
          rintro rfl
          exact hn ⟨hs', x, by simp, rfl⟩
        have h4 := h3 (fun ⟨a, n, hn', hk⟩ => hn ⟨a, n, by simp [hn'], hk⟩)
        simp [hx, Ne.symm hx, h4]
    · rw [if_neg hs]
      push Not at hs
      have hx : (lib.create x).id ∉ types := by
        intro h; have := List.count_pos_iff.2 h; omega
      refine ⟨h1, ?_, ?_⟩
      · intro ht ⟨n, hn, hk⟩
        rcases List.mem_append.1 hn with h | h
        · obtain ⟨n', hn', hk', hf⟩ := h2 ht ⟨n, h, hk⟩
          exact ⟨n', by simp [hn'], hk', hf⟩
        · rw [List.mem_singleton.1 h] at hk
          rcases ht with ht | ht
          · exact absurd ht hs.1
          · rw [← hk] at ht; exact absurd ht hx
      · intro hn
        exact h3 (fun ⟨a, n, hn', hk⟩ => hn ⟨a, n, by simp [hn'], hk⟩)

end Verif.EvRead
