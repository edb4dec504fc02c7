import Verif.Snap.Model
import Verif.Snap.Spec
import Mathlib.Data.List.Forall2
import Mathlib.Data.List.Nodup
import Mathlib.Tactic.Tauto
import Mathlib.Tactic.NormNum
/- Lemmas on snapshots. -/
set_option linter.unusedSectionVars false
set_option linter.unusedSimpArgs false
set_option linter.unusedVariables false
namespace Verif.Snap
open Spec

variable {κ : Type} [LinearOrder κ]

/-! ### Bits -/

theorem hit_or (a b m : Nat) : hit (a ||| b) m = (hit a m || hit b m) := by
  rw [Bool.eq_iff_iff]
  simp only [hit, Nat.and_or_distrib_right, Bool.or_eq_true, bne_iff_ne, ne_eq, Nat.or_eq_zero_iff]
  tauto

theorem hit_zero (m : Nat) : hit 0 m = false := by simp [hit]

/-! ### Parameters -/

theorem differ_iff {a b : ℝ} : differ a b = true ↔ ¬ Close a b := by
  simp only [differ, decide_eq_true_eq, gt_iff_lt, Close, not_le]

theorem differ_false {a b : ℝ} : differ a b = false ↔ Close a b := by
  rw [← Bool.not_eq_true, differ_iff, not_not]

theorem priorLoop_iff : ∀ (l1 l2 : List (κ × ℝ)), l1.length = l2.length →
    (priorLoop l1 l2 = false ↔ List.Forall₂ (fun x y => x.1 = y.1 ∧ Close x.2 y.2) l1 l2)
  | [], [], _ => by simp [priorLoop]
  | (n1, v1) :: l1, (n2, v2) :: l2, h => by
    have ih := priorLoop_iff l1 l2 (by simpa using h)
    simp only [priorLoop, List.forall₂_cons]
    by_cases hn : n1 = n2
    · rw [if_neg (by simpa using hn)]
      by_cases hd : differ v1 v2 = true
      · rw [if_pos hd]; simp [(differ_iff.1 hd)]
      · rw [if_neg hd, ih]; simp [hn, differ_false.1 (by simpa using hd)]
    · rw [if_pos hn]; simp [hn]

theorem comparePriors_iff (p q : Option (Prior κ)) :
    comparePriors p q = true ↔ ¬ SamePrior p q := by
  cases p with
  | none => cases q <;> simp [comparePriors, SamePrior]
  | some a =>
    cases q with
    | none => simp [comparePriors, SamePrior]
    | some b =>
      simp only [comparePriors, SamePrior]
      by_cases hl : a.pars.length = b.pars.length
      · rw [if_neg (by simpa using hl), ← priorLoop_iff _ _ hl]; simp
      · rw [if_pos hl]
        simp only [true_iff]
        exact fun h => hl h.length_eq

/-- The three bits of a comparison. -/
def bits3 (a b c fixed : Bool) : Nat :=
  let s := (if a then valueChanged else 0) ||| (if b then statusChanged else 0) |||
    (if c then priorChanged else 0)
  if s ≠ 0 then s ||| (if fixed then fixedChanged else freeChanged) else s

theorem marked_eq (fixed : Bool) (p q : Par κ) :
    markedStatus fixed p q =
      bits3 (differ p.tv q.tv) (p.free != q.free) (comparePriors p.prior q.prior) fixed := by
  rfl

theorem marked_lt (fixed : Bool) (p q : Par κ) : markedStatus fixed p q < 2 ^ 5 := by
  rw [marked_eq]
  generalize differ p.tv q.tv = a
  generalize (p.free != q.free) = b
  generalize comparePriors p.prior q.prior = c
  revert a b c fixed; decide

theorem same_iff (p q : Par κ) : SamePar p q ↔
    differ p.tv q.tv = false ∧ (p.free != q.free) = false ∧
      comparePriors p.prior q.prior = false := by
  rw [differ_false, ← Bool.not_eq_true (comparePriors p.prior q.prior), comparePriors_iff]
  simp [SamePar, Par.tv]

theorem marked_zero (fixed : Bool) (p q : Par κ) : markedStatus fixed p q = 0 ↔ SamePar p q := by
  rw [marked_eq, same_iff]
  generalize differ p.tv q.tv = a
  generalize (p.free != q.free) = b
  generalize comparePriors p.prior q.prior = c
  revert a b c fixed; decide

theorem compareNorm_facts (p q : Par κ) (fixed : Bool) :
    (compareNorm p q fixed = 0 ↔ SamePar p q) ∧
    (hit (compareNorm p q fixed) valueChanged = true ↔ ¬ Close p.tv q.tv) ∧
    (hit (compareNorm p q fixed) statusChanged = true ↔ p.free ≠ q.free) ∧
    (hit (compareNorm p q fixed) priorChanged = true ↔ ¬ SamePrior p.prior q.prior) ∧
    (hit (compareNorm p q fixed) sourceFreed = true ↔ p.free ≠ q.free ∧ fixed = true) ∧
    hit (compareNorm p q fixed) modelChangedMask = false := by
  have e : (p.free ≠ q.free) ↔ (p.free != q.free) = true := by simp
  rw [← differ_iff, ← comparePriors_iff, same_iff, e]
  simp only [compareNorm, marked_eq]
  generalize differ p.tv q.tv = a
  generalize (p.free != q.free) = b
  generalize comparePriors p.prior q.prior = c
  revert a b c fixed; decide

/-! ### Lists of parameters -/

theorem parLoop_acc (fixed : Bool) : ∀ (l1 l2 : List (κ × Par κ)) (s : Nat),
    parLoop fixed l1 l2 s = (s ||| (parLoop fixed l1 l2 0).1, (parLoop fixed l1 l2 0).2)
  | [], _, s => by simp [parLoop]
  | _ :: _, [], s => by simp [parLoop]
  | (n1, p1) :: l1, (n2, p2) :: l2, s => by
    simp only [parLoop]
    by_cases hn : n1 = n2
    · rw [if_neg (by simpa using hn), if_neg (by simpa using hn), parLoop_acc fixed l1 l2,
        parLoop_acc fixed l1 l2 (0 ||| _)]
      simp [Nat.or_assoc]
    · rw [if_pos hn, if_pos hn]; simp

theorem parLoop_lt (fixed : Bool) : ∀ (l1 l2 : List (κ × Par κ)),
    (parLoop fixed l1 l2 0).1 < 2 ^ 5
  | [], _ => by simp [parLoop]
  | _ :: _, [] => by simp [parLoop]
  | (n1, p1) :: l1, (n2, p2) :: l2 => by
    simp only [parLoop]
    by_cases hn : n1 = n2
    · rw [if_neg (by simpa using hn), parLoop_acc]
      exact Nat.or_lt_two_pow (by simpa using marked_lt fixed p1 p2) (parLoop_lt fixed l1 l2)
    · rw [if_pos hn]; simp

/-- All names agree. -/
theorem parLoop_names (fixed : Bool) : ∀ (l1 l2 : List (κ × Par κ)), l1.length = l2.length →
    ((parLoop fixed l1 l2 0).2 = true ↔ l1.map Prod.fst = l2.map Prod.fst)
  | [], [], _ => by simp [parLoop]
  | (n1, p1) :: l1, (n2, p2) :: l2, h => by
    simp only [parLoop]
    by_cases hn : n1 = n2
    · rw [if_neg (by simpa using hn), parLoop_acc]
      simp [parLoop_names fixed l1 l2 (by simpa using h), hn]
    · rw [if_pos hn]; simp [hn]

/-- Nothing changed. -/
theorem parLoop_zero (fixed : Bool) : ∀ (l1 l2 : List (κ × Par κ)), l1.map Prod.fst = l2.map Prod.fst →
    ((parLoop fixed l1 l2 0).1 = 0 ↔ List.Forall₂ (fun x y => x.1 = y.1 ∧ SamePar x.2 y.2) l1 l2)
  | [], [], _ => by simp [parLoop]
  | (n1, p1) :: l1, (n2, p2) :: l2, h => by
    simp only [List.map_cons, List.cons.injEq] at h
    simp only [parLoop]
    rw [if_neg (by simpa using h.1), parLoop_acc]
    simp only [Nat.or_eq_zero_iff, List.forall₂_cons, parLoop_zero fixed l1 l2 h.2, marked_zero]
    simp [h.1]
  | [], _ :: _, h => by simp at h
  | _ :: _, [], h => by simp at h

/-- What the comparison of two lists of parameters says. -/
structure ParsFacts (c : Nat) (sameType : Prop) (same : Prop) : Prop where
  /-- Nothing changed. -/
  zero : c = 0 ↔ sameType ∧ same
  /-- The bits of the parameters are set exactly if the type is the same and a parameter changed. -/
  model : hit c modelChangedMask = true ↔ sameType ∧ ¬ same
  /-- The bit for a freed source is not touched. -/
  freed : hit c sourceFreed = false
  /-- With the type unchanged no bit of the normalisation is touched. -/
  norm : sameType → ∀ m ∈ [valueChanged, statusChanged, priorChanged], hit c m = false

theorem spec_bits : ∀ s < 2 ^ 5, (s <<< specOffset = 0 ↔ s = 0) ∧
    (hit (s <<< specOffset) modelChangedMask = true ↔ s ≠ 0) ∧
    hit (s <<< specOffset) sourceFreed = false ∧
    ∀ m ∈ [valueChanged, statusChanged, priorChanged], hit (s <<< specOffset) m = false := by decide

theorem spat_bits : ∀ s < 2 ^ 5, (s <<< spatialOffset = 0 ↔ s = 0) ∧
    (hit (s <<< spatialOffset) modelChangedMask = true ↔ s ≠ 0) ∧
    hit (s <<< spatialOffset) sourceFreed = false ∧
    ∀ m ∈ [valueChanged, statusChanged, priorChanged], hit (s <<< spatialOffset) m = false := by decide

theorem spec_type_bits : ∀ fixed : Bool, ∀ s < 2 ^ 5,
    (s ||| (specType ||| (if fixed then specTypeFixed else specTypeFree)) ≠ 0) ∧
    hit (s ||| (specType ||| (if fixed then specTypeFixed else specTypeFree))) modelChangedMask = false ∧
    hit (s ||| (specType ||| (if fixed then specTypeFixed else specTypeFree))) sourceFreed = false := by
  decide

theorem spat_type_bits : ∀ fixed : Bool, ∀ s < 2 ^ 5,
    (s ||| (spatialType ||| (if fixed then spatialTypeFixed else spatialTypeFree)) ≠ 0) ∧
    hit (s ||| (spatialType ||| (if fixed then spatialTypeFixed else spatialTypeFree))) modelChangedMask
      = false ∧
    hit (s ||| (spatialType ||| (if fixed then spatialTypeFixed else spatialTypeFree))) sourceFreed
      = false := by
  decide

/-- Both comparisons at once. -/
theorem comparePars_facts {M : Type} [DecidableEq M] (offset ty tyFree tyFixed : Nat)
    (hb : ∀ s < 2 ^ 5, (s <<< offset = 0 ↔ s = 0) ∧
      (hit (s <<< offset) modelChangedMask = true ↔ s ≠ 0) ∧
      hit (s <<< offset) sourceFreed = false ∧
      ∀ m ∈ [valueChanged, statusChanged, priorChanged], hit (s <<< offset) m = false)
    (ht : ∀ fixed : Bool, ∀ s < 2 ^ 5,
      (s ||| (ty ||| (if fixed then tyFixed else tyFree)) ≠ 0) ∧
      hit (s ||| (ty ||| (if fixed then tyFixed else tyFree))) modelChangedMask = false ∧
      hit (s ||| (ty ||| (if fixed then tyFixed else tyFree))) sourceFreed = false)
    (n1 n2 : M) (m1 m2 : List (κ × Par κ)) (fixed : Bool) :
    ParsFacts (comparePars offset ty tyFree tyFixed n1 n2 m1 m2 fixed)
      (n1 = n2 ∧ m1.map Prod.fst = m2.map Prod.fst)
      (List.Forall₂ (fun x y => x.1 = y.1 ∧ SamePar x.2 y.2) m1 m2) := by
  have key : ∀ s < 2 ^ 5, ∀ (T S : Prop), ¬ T →
      ParsFacts (s ||| (ty ||| (if fixed then tyFixed else tyFree))) T S := by
    intro s hs T S hT
    obtain ⟨h1, h2, h3⟩ := ht fixed s hs
    exact ⟨⟨fun h => absurd h h1, fun h => absurd h.1 hT⟩,
      ⟨fun h => by rw [h2] at h; exact absurd h (by simp), fun h => absurd h.1 hT⟩, h3,
      fun h => absurd h hT⟩
  simp only [comparePars]
  by_cases hc : n1 ≠ n2 ∨ m1.length ≠ m2.length
  · rw [if_pos hc]
    have := key 0 (by norm_num) (n1 = n2 ∧ m1.map Prod.fst = m2.map Prod.fst)
      (List.Forall₂ (fun x y => x.1 = y.1 ∧ SamePar x.2 y.2) m1 m2) (by
        rintro ⟨h1, h2⟩
        rcases hc with h | h
        · exact h h1
        · exact h (by simpa using congrArg List.length h2))
    simpa using this
  · rw [if_neg hc]
    simp only [not_or, not_not] at hc
    obtain ⟨hn, hl⟩ := hc
    have hN := parLoop_names fixed m1 m2 hl
    have hlt := parLoop_lt fixed m1 m2
    have hZ := parLoop_zero fixed m1 m2
    rcases hp : parLoop fixed m1 m2 0 with ⟨s, b⟩
    rw [hp] at hN hlt hZ
    cases b with
    | false =>
      simp only [Bool.false_eq_true, false_iff] at hN
      exact key s hlt _ _ (fun h => hN h.2)
    | true =>
      simp only [true_iff] at hN
      obtain ⟨h1, h2, h3, h4⟩ := hb s hlt
      have hz := hZ hN
      exact ⟨by rw [h1, hz]; simp [hn, hN], by rw [h2, ne_eq, hz]; simp [hn, hN], h3, fun _ => h4⟩

/-! ### Maps of parameters -/

theorem putAll_sorted : ∀ (ps m : List (κ × Par κ)), StdMap.Sorted m → StdMap.Sorted (putAll m ps)
  | [], m, h => h
  | p :: ps, m, h => by
    show StdMap.Sorted (putAll (StdMap.put m p.1 p.2) ps)
    exact putAll_sorted ps _ (StdMap.sorted_put h _ _)

theorem find_putAll : ∀ (ps m : List (κ × Par κ)), StdMap.Sorted m → (ps.map Prod.fst).Nodup →
    ∀ n, StdMap.find (putAll m ps) n = (ps.lookup n).or (StdMap.find m n)
  | [], m, h, _, n => by simp [putAll]
  | p :: ps, m, h, hd, n => by
    simp only [List.map_cons, List.nodup_cons] at hd
    show StdMap.find (putAll (StdMap.put m p.1 p.2) ps) n = _
    rw [find_putAll ps _ (StdMap.sorted_put h _ _) hd.2, StdMap.find_put h]
    obtain ⟨k, a⟩ := p
    by_cases hk : n = k
    · subst hk
      have : ps.lookup n = none := by
        rw [List.lookup_eq_none_iff]
        intro q hq
        rw [bne_iff_ne]
        rintro rfl
        exact hd.1 (List.mem_map.2 ⟨q, hq, rfl⟩)
      simp [this, List.lookup_cons]
    · have : (n == k) = false := by simpa using hk
      simp [List.lookup_cons, this, hk]

theorem putAll_append (m l1 l2 : List (κ × Par κ)) :
    putAll m (l1 ++ l2) = putAll (putAll m l1) l2 := by
  simp [putAll, List.foldl_append]

theorem spat_fold : ∀ (fs : List (κ × Fn κ)) (m : List (κ × Par κ)),
    fs.foldl (fun m f => putAll m f.2.pars) m = putAll m (fs.flatMap fun f => f.2.pars)
  | [], m => by simp [putAll]
  | f :: fs, m => by
    simp only [List.foldl_cons, List.flatMap_cons, putAll_append]
    exact spat_fold fs _

theorem find_map (l : List (κ × Par κ)) (hd : (l.map Prod.fst).Nodup) (n : κ) :
    StdMap.find (putAll [] l) n = l.lookup n := by
  rw [find_putAll l [] StdMap.sorted_nil hd]
  cases l.lookup n <;> rfl

theorem lookup_mem (l : List (κ × Par κ)) (n : κ) : n ∈ l.map Prod.fst ↔ ∃ p, l.lookup n = some p := by
  induction l with
  | nil => simp
  | cons x l ih =>
    obtain ⟨k, a⟩ := x
    by_cases hk : n = k
    · subst hk; simp [List.lookup_cons]
    · have : (n == k) = false := by simpa using hk
      rw [List.lookup_cons, this]
      simp only [List.map_cons, List.mem_cons, hk, false_or]
      exact ih

theorem names_iff (l1 l2 : List (κ × Par κ)) (h1 : (l1.map Prod.fst).Nodup)
    (h2 : (l2.map Prod.fst).Nodup) :
    (putAll [] l1).map Prod.fst = (putAll [] l2).map Prod.fst ↔ SameNames l1 l2 := by
  have k1 : ∀ n, n ∈ (putAll [] l1).map Prod.fst ↔ n ∈ l1.map Prod.fst := fun n => by
    rw [lookup_mem l1, ← find_map l1 h1]
    exact StdMap.mem_keys_iff
  have k2 : ∀ n, n ∈ (putAll [] l2).map Prod.fst ↔ n ∈ l2.map Prod.fst := fun n => by
    rw [lookup_mem l2, ← find_map l2 h2]
    exact StdMap.mem_keys_iff
  constructor
  · intro h n; rw [← k1, ← k2, h]
  · intro h
    have s1 : ((putAll [] l1).map Prod.fst).Pairwise (· < ·) := putAll_sorted l1 [] StdMap.sorted_nil
    have s2 : ((putAll [] l2).map Prod.fst).Pairwise (· < ·) := putAll_sorted l2 [] StdMap.sorted_nil
    have hp : ((putAll [] l1).map Prod.fst).Perm ((putAll [] l2).map Prod.fst) := by
      rw [List.perm_ext_iff_of_nodup (s1.imp fun h => ne_of_lt h) (s2.imp fun h => ne_of_lt h)]
      intro n; rw [k1, k2, h]
    exact hp.eq_of_pairwise (fun a b _ _ h1 h2 => absurd h1 (not_lt.2 (le_of_lt h2))) s1 s2

theorem forall2_find : ∀ (m1 m2 : List (κ × Par κ)), m1.map Prod.fst = m2.map Prod.fst →
    (m1.map Prod.fst).Nodup →
    (List.Forall₂ (fun x y => x.1 = y.1 ∧ SamePar x.2 y.2) m1 m2 ↔
      ∀ n, SameOpt (StdMap.find m1 n) (StdMap.find m2 n))
  | [], [], _, _ => by simp [StdMap.find, SameOpt]
  | [], _ :: _, h, _ => by simp at h
  | _ :: _, [], h, _ => by simp at h
  | (k1, p1) :: m1, (k2, p2) :: m2, h, hd => by
    simp only [List.map_cons, List.cons.injEq] at h
    obtain ⟨rfl, h⟩ := h
    simp only [List.map_cons, List.nodup_cons] at hd
    rw [List.forall₂_cons, forall2_find m1 m2 h hd.2]
    simp only [StdMap.find, true_and]
    constructor
    · rintro ⟨hp, hr⟩ n
      by_cases hk : k1 = n
      · rw [if_pos hk, if_pos hk]; exact hp
      · rw [if_neg hk, if_neg hk]; exact hr n
    · intro hr
      constructor
      · have := hr k1; simpa [SameOpt] using this
      · intro n
        by_cases hk : k1 = n
        · subst hk
          have e1 : StdMap.find m1 k1 = none := StdMap.find_none.2 hd.1
          have e2 : StdMap.find m2 k1 = none := StdMap.find_none.2 (by
            show k1 ∉ m2.map Prod.fst
            rw [← h]; exact hd.1)
          rw [e1, e2]; trivial
        · have := hr n
          rw [if_neg hk, if_neg hk] at this; exact this

theorem pars_iff (l1 l2 : List (κ × Par κ)) (h1 : (l1.map Prod.fst).Nodup)
    (h2 : (l2.map Prod.fst).Nodup) (hn : SameNames l1 l2) :
    List.Forall₂ (fun x y => x.1 = y.1 ∧ SamePar x.2 y.2) (putAll [] l1) (putAll [] l2) ↔
      SamePars l1 l2 := by
  rw [forall2_find _ _ ((names_iff l1 l2 h1 h2).2 hn)
    ((putAll_sorted l1 [] StdMap.sorted_nil).imp fun h => ne_of_lt h)]
  simp only [SamePars, find_map l1 h1, find_map l2 h2]

theorem names_of_pars {l1 l2 : List (κ × Par κ)} (h : SamePars l1 l2) : SameNames l1 l2 := by
  intro n
  rw [lookup_mem, lookup_mem]
  have := h n
  cases h1 : l1.lookup n <;> cases h2 : l2.lookup n <;> rw [h1, h2] at this <;> simp_all [SameOpt]

/-! ### Sources -/

/-- What the comparison of a source with its snapshot says. -/
theorem compare_facts (s t : Src κ) (hs : Distinct s) (ht : Distinct t) :
    (compare (latchSource s) t = 0 ↔ Same s t) ∧
    (hit (compare (latchSource s) t) sourceFreed = true ↔ s.norm.free = false ∧ t.norm.free = true) ∧
    (hit (compare (latchSource s) t) modelChangedMask = true ↔
      (SameSpecType s t ∧ ¬ SamePars s.spec.pars t.spec.pars) ∨
      (SameSpatType s t ∧ ¬ SamePars (spatial s) (spatial t))) ∧
    (SameSpecType s t → SameSpatType s t →
      (hit (compare (latchSource s) t) valueChanged = true ↔ ¬ Close s.norm.tv t.norm.tv) ∧
      (hit (compare (latchSource s) t) statusChanged = true ↔ s.norm.free ≠ t.norm.free) ∧
      (hit (compare (latchSource s) t) priorChanged = true ↔ ¬ SamePrior s.norm.prior t.norm.prior)) := by
  obtain ⟨n1, n2, n3, n4, n5, n6⟩ := compareNorm_facts s.norm t.norm (!s.norm.free)
  have F := comparePars_facts specOffset specType specTypeFree specTypeFixed spec_bits spec_type_bits
    s.spec.kind t.spec.kind (putAll [] s.spec.pars) (putAll [] t.spec.pars) (!s.norm.free)
  have G := comparePars_facts spatialOffset spatialType spatialTypeFree spatialTypeFixed
    spat_bits spat_type_bits (s.funcs.map Prod.fst) (t.funcs.map Prod.fst)
    (putAll [] (spatial s)) (putAll [] (spatial t)) (!s.norm.free)
  have e : compare (latchSource s) t = compareNorm s.norm t.norm (!s.norm.free) |||
      comparePars specOffset specType specTypeFree specTypeFixed s.spec.kind t.spec.kind
        (putAll [] s.spec.pars) (putAll [] t.spec.pars) (!s.norm.free) |||
      comparePars spatialOffset spatialType spatialTypeFree spatialTypeFixed
        (s.funcs.map Prod.fst) (t.funcs.map Prod.fst)
        (putAll [] (spatial s)) (putAll [] (spatial t)) (!s.norm.free) := by
    simp only [compare, latchSource, spat_fold, spatial]
  rw [e]
  rw [names_iff _ _ hs.1 ht.1] at F
  rw [names_iff _ _ hs.2 ht.2] at G
  have fp := fun h => pars_iff s.spec.pars t.spec.pars hs.1 ht.1 h
  have gp := fun h => pars_iff (spatial s) (spatial t) hs.2 ht.2 h
  refine ⟨?_, ?_, ?_, ?_⟩
  · rw [Nat.or_eq_zero_iff, Nat.or_eq_zero_iff, n1, F.zero, G.zero]
    constructor
    · rintro ⟨⟨h1, ⟨h2, h3⟩, h4⟩, ⟨h5, h6⟩, h7⟩
      exact ⟨h1, h2, (fp h3).1 h4, h5, (gp h6).1 h7⟩
    · rintro ⟨h1, h2, h3, h4, h5⟩
      exact ⟨⟨h1, ⟨h2, names_of_pars h3⟩, (fp (names_of_pars h3)).2 h3⟩, ⟨h4, names_of_pars h5⟩,
        (gp (names_of_pars h5)).2 h5⟩
  · rw [hit_or, hit_or, F.freed, G.freed, Bool.or_false, Bool.or_false, n5]
    cases s.norm.free <;> cases t.norm.free <;> simp
  · rw [hit_or, hit_or, n6, Bool.false_or, Bool.or_eq_true, F.model, G.model]
    constructor
    · rintro (⟨⟨h1, h2⟩, h3⟩ | ⟨⟨h1, h2⟩, h3⟩)
      · exact Or.inl ⟨⟨h1, h2⟩, fun h => h3 ((fp h2).2 h)⟩
      · exact Or.inr ⟨⟨h1, h2⟩, fun h => h3 ((gp h2).2 h)⟩
    · rintro (⟨⟨h1, h2⟩, h3⟩ | ⟨⟨h1, h2⟩, h3⟩)
      · exact Or.inl ⟨⟨h1, h2⟩, fun h => h3 ((fp h2).1 h)⟩
      · exact Or.inr ⟨⟨h1, h2⟩, fun h => h3 ((gp h2).1 h)⟩
  · intro h1 h2
    have f := F.norm h1
    have g := G.norm h2
    simp only [hit_or, f valueChanged (by simp), g valueChanged (by simp),
      f statusChanged (by simp), g statusChanged (by simp),
      f priorChanged (by simp), g priorChanged (by simp), Bool.or_false]
    exact ⟨n2, n3, n4⟩

end Verif.Snap
