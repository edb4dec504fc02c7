import Mathlib.Data.List.Nodup
import Mathlib.Data.List.Flatten
import Verif.StdMap
import Verif.Comp1.Spec
/-
Lemmas on composites of likelihood objects.
-/
set_option linter.unusedSectionVars false
set_option linter.unusedSimpArgs false
set_option linter.unusedVariables false
namespace Verif.Comp1
open SrcModel (Par)
open Verif.Comp1.Spec

variable {κ K : Type} [DecidableEq κ]

/-! ### Lookups -/

theorem find_key {α β : Type} [DecidableEq α] {m : List (α × β)} (h : (m.map Prod.fst).Nodup) {x : α × β}
    (hx : x ∈ m) : m.find? (fun y => y.1 = x.1) = some x := by
  induction m with
  | nil => cases hx
  | cons y m ih =>
    rw [List.map_cons, List.nodup_cons] at h
    rcases List.mem_cons.1 hx with rfl | hx
    · simp
    · rw [List.find?_cons_of_neg, ih h.2 hx]
      simp only [decide_eq_true_eq]
      intro e
      exact h.1 (e ▸ List.mem_map_of_mem (f := Prod.fst) hx)

theorem find_mem {α β : Type} [DecidableEq α] {m : List (α × β)} {k : α} (h : k ∈ m.map Prod.fst) :
    ∃ x ∈ m, x.1 = k ∧ m.find? (fun y => y.1 = k) = some x := by
  cases e : m.find? (fun y => y.1 = k) with
  | none =>
    rw [List.find?_eq_none] at e
    obtain ⟨x, hx, rfl⟩ := List.mem_map.1 h
    exact absurd (e x hx) (by simp)
  | some x => exact ⟨x, List.mem_of_find?_eq_some e, by simpa using List.find?_some e, rfl⟩

/-- A change that keeps the keys goes through a lookup. -/
theorem find_map {α β : Type} [DecidableEq α] (m : List (α × β)) (f : α × β → β) (k : α) :
    (m.map fun y => (y.1, f y)).find? (fun y => y.1 = k) = (m.find? (fun y => y.1 = k)).map fun y => (y.1, f y) := by
  induction m with
  | nil => rfl
  | cons y m ih => by_cases h : y.1 = k <;> simp [List.find?_cons, h, ih]

theorem find_name (ps : List (Par κ K)) (f : Par κ K → Par κ K) (hf : ∀ p, (f p).name = p.name) (k : κ) :
    (ps.map f).find? (fun p => p.name = k) = (ps.find? (fun p => p.name = k)).map f := by
  induction ps with
  | nil => rfl
  | cons y m ih => by_cases h : y.name = k <;> simp [List.find?_cons, h, ih, hf]

theorem flatMap_filter_eq {α β : Type} (l : List α) (p : α → Bool) (f : α → List β) :
    (l.filter p).flatMap f = l.flatMap fun x => if p x then f x else [] := by
  induction l with
  | nil => rfl
  | cons x l ih => by_cases h : p x <;> simp [List.filter_cons, h, ih]

/-! ### Sources of one component -/

/-- The facts of `Tidy` on one component. -/
structure Ok (norm : κ) (shape : List κ) (c : Comp κ K) : Prop where
  sources : (c.srcs.map Prod.fst).Nodup
  params : ∀ y ∈ c.srcs, (y.2.pars.map (·.name)).Nodup
  common : c.common ∈ c.srcs.map Prod.fst
  norms : (entry c c.common norm).isSome
  shapes : ∀ p ∈ shape, (entry c c.common p).isSome

theorem ok_of_tidy {s : State κ K} (h : Tidy s) {x : Nat × Comp κ K} (hx : x ∈ s.comps) :
    Ok s.norm (shapeNames s) x.2 :=
  ⟨h.sources x hx, h.params x hx, h.common x hx, h.norms x hx, h.shapes x hx⟩

theorem names_of {c : Comp κ K} (h : (c.srcs.map Prod.fst).Nodup) {y : κ × Spectrum κ K} (hy : y ∈ c.srcs) :
    freeNames c y.1 = (y.2.pars.filter (·.free)).map (·.name) := by
  rw [freeNames, find_key h hy]

theorem entry_of {c : Comp κ K} (h : (c.srcs.map Prod.fst).Nodup) {y : κ × Spectrum κ K} (hy : y ∈ c.srcs) (p : κ) :
    entry c y.1 p = y.2.pars.find? (fun q => q.name = p) := by
  rw [entry, find_key h hy]

theorem common_of {norm : κ} {shape : List κ} {c : Comp κ K} (h : Ok norm shape c) :
    ∃ y ∈ c.srcs, y.1 = c.common ∧ source c.srcs c.common = .ok y.2 ∧
      freeNames c c.common = (y.2.pars.filter (·.free)).map (·.name) := by
  obtain ⟨y, hy, e, hf⟩ := find_mem h.common
  exact ⟨y, hy, e, by rw [source, hf], by rw [freeNames, hf]⟩

theorem normPar_of {norm : κ} {shape : List κ} {c : Comp κ K} (h : Ok norm shape c) {y : κ × Spectrum κ K}
    (hy : y ∈ c.srcs) (e : y.1 = c.common) :
    ∃ p ∈ y.2.pars, p.name = norm ∧ normPar norm y.2.pars = .ok p ∧ entry c c.common norm = some p ∧
      (p.free = true ↔ norm ∈ freeNames c c.common) := by
  have h1 := h.norms
  rw [← e, entry_of h.sources hy] at h1
  obtain ⟨p, hp⟩ := Option.isSome_iff_exists.1 h1
  have hm := List.mem_of_find?_eq_some hp
  have hn : p.name = norm := by simpa using List.find?_some hp
  refine ⟨p, hm, hn, by rw [normPar, hp], by rw [← e, entry_of h.sources hy, hp], ?_⟩
  rw [← e, names_of h.sources hy]
  constructor
  · exact fun hf => List.mem_map.2 ⟨p, List.mem_filter.2 ⟨hm, hf⟩, hn⟩
  · rintro hq
    obtain ⟨q, hq, e2⟩ := List.mem_map.1 hq
    obtain ⟨hq1, hq2⟩ := List.mem_filter.1 hq
    have := List.inj_on_of_nodup_map (h.params y hy) hq1 hm (e2.trans hn.symm)
    rwa [← this]

/-- The loop over names is a loop over sources. -/
theorem others_flat {β : Type} {c : Comp κ K} (h : (c.srcs.map Prod.fst).Nodup) (f : κ → κ → β) :
    (((c.srcs.map Prod.fst).filter (· ≠ c.common)).flatMap fun n => (freeNames c n).map (f n)) =
      c.srcs.flatMap fun y => if y.1 ≠ c.common then (y.2.pars.filter (·.free)).map (fun p => f y.1 p.name) else [] := by
  rw [flatMap_filter_eq, List.flatMap_map]
  refine List.flatMap_congr fun y hy => ?_
  by_cases e : y.1 = c.common
  · simp [e]
  · simp only [e, ne_eq, not_false_eq_true, decide_true, if_true]
    rw [names_of h hy, List.map_map]; rfl

theorem find_par {c : Comp κ K} (h : (c.srcs.map Prod.fst).Nodup) (h2 : ∀ y ∈ c.srcs, (y.2.pars.map (·.name)).Nodup)
    {y : κ × Spectrum κ K} (hy : y ∈ c.srcs) {p : Par κ K} (hp : p ∈ y.2.pars) :
    entry c y.1 p.name = some p := by
  rw [entry_of h hy]
  cases e : y.2.pars.find? (fun q => q.name = p.name) with
  | none => rw [List.find?_eq_none] at e; exact absurd (e p hp) (by simp)
  | some q =>
    rw [List.inj_on_of_nodup_map (h2 y hy) (List.mem_of_find?_eq_some e) hp (by simpa using List.find?_some e)]

theorem lookup_of {s : State κ K} (h : Tidy s) {x : Nat × Comp κ K} (hx : x ∈ s.comps) (n p : κ) :
    lookup s (x.1, n, p) = entry x.2 n p := by
  have hn : (s.comps.map Prod.fst).Nodup := h.keys.imp fun h => Nat.ne_of_lt h
  rw [lookup, find_key hn hx]

/-! ### Setting -/

/-- A parameter with a new value if it is driven. -/
def newVal (b : Bool) (v : K) (p : Par κ K) : Par κ K := if b then { p with value := v } else p

@[simp] theorem newVal_name (b : Bool) (v : K) (p : Par κ K) : (newVal b v p).name = p.name := by
  unfold newVal; split <;> rfl
@[simp] theorem newVal_free (b : Bool) (v : K) (p : Par κ K) : (newVal b v p).free = p.free := by
  unfold newVal; split <;> rfl
@[simp] theorem newVal_lo (b : Bool) (v : K) (p : Par κ K) : (newVal b v p).lo = p.lo := by
  unfold newVal; split <;> rfl
@[simp] theorem newVal_hi (b : Bool) (v : K) (p : Par κ K) : (newVal b v p).hi = p.hi := by
  unfold newVal; split <;> rfl

theorem newVal_comp (a b : Bool) (v : K) (p : Par κ K) : newVal a v (newVal b v p) = newVal (b || a) v p := by
  cases a <;> cases b <;> rfl

variable [Field K] [LinearOrder K] [IsStrictOrderedRing K]

theorem setValue_eq {p : Par κ K} {v : K} (h : p.lo ≤ v ∧ v ≤ p.hi) : setValue p v = .ok (newVal true v p) := by
  rw [setValue, Par.setValue, if_pos h]; rfl

theorem setFree_eq (w : κ → K) (ps : List (Par κ K)) (r : List K)
    (h : ∀ p ∈ ps, p.free = true → p.lo ≤ w p.name ∧ w p.name ≤ p.hi) :
    setFree ps ((ps.filter (·.free)).map (fun p => w p.name) ++ r) =
      .ok (ps.map (fun p => newVal p.free (w p.name) p), r) := by
  induction ps with
  | nil => rfl
  | cons p ps ih =>
    have ih := ih fun q hq => h q (List.mem_cons_of_mem _ hq)
    by_cases hp : p.free = true
    · rw [List.filter_cons_of_pos hp, List.map_cons, List.cons_append]
      unfold setFree
      rw [if_pos hp]
      simp only []
      rw [setValue_eq (h p (List.mem_cons_self ..) hp), Res.bind_ok, ih, Res.bind_ok]
      simp [hp]
    · rw [List.filter_cons_of_neg hp]
      unfold setFree
      rw [if_neg hp, ih, Res.bind_ok]
      rw [Bool.not_eq_true] at hp
      simp [hp, newVal]

/-- A source after the other sources have been set. -/
def otherDone (w : κ → κ → K) (common : κ) (y : κ × Spectrum κ K) : Spectrum κ K :=
  ⟨y.2.kind, y.2.pars.map fun p => newVal (decide (y.1 ≠ common) && p.free) (w y.1 p.name) p⟩

theorem setOthers_eq (w : κ → κ → K) (common : κ) (m : List (κ × Spectrum κ K)) (r : List K)
    (h : ∀ y ∈ m, y.1 ≠ common → ∀ p ∈ y.2.pars, p.free = true → p.lo ≤ w y.1 p.name ∧ w y.1 p.name ≤ p.hi) :
    setOthers common m ((m.flatMap fun y => if y.1 ≠ common then
        (y.2.pars.filter (·.free)).map (fun p => w y.1 p.name) else []) ++ r) =
      .ok (m.map (fun y => (y.1, otherDone w common y)), r) := by
  induction m with
  | nil => rfl
  | cons y m ih =>
    obtain ⟨n, sp⟩ := y
    have ih := ih fun q hq => h q (List.mem_cons_of_mem _ hq)
    rw [List.flatMap_cons, List.append_assoc]
    by_cases hn : n = common
    · simp only [hn, ne_eq, not_true, if_false, List.nil_append]
      rw [setOthers, if_neg (by simp), ih, Res.bind_ok]
      simp [newVal, otherDone]
    · simp only [ne_eq, hn, not_false_eq_true, if_true]
      rw [setOthers, if_pos hn, setFree_eq (w n) sp.pars _ (h (n, sp) (List.mem_cons_self ..) hn), Res.bind_ok]
      simp only []
      rw [ih, Res.bind_ok]
      simp [hn, otherDone]

/-- A component after its other sources have been set. -/
def othersDone (w : κ → κ → K) (c : Comp κ K) : Comp κ K :=
  ⟨c.srcs.map (fun y => (y.1, otherDone w c.common y)), c.common⟩

theorem setOthersAll_eq (w : Nat → κ → κ → K) (cs : List (Nat × Comp κ K)) (r : List K)
    (h : ∀ x ∈ cs, ∀ y ∈ x.2.srcs, y.1 ≠ x.2.common → ∀ p ∈ y.2.pars, p.free = true →
      p.lo ≤ w x.1 y.1 p.name ∧ w x.1 y.1 p.name ≤ p.hi) :
    setOthersAll cs ((cs.flatMap fun x => x.2.srcs.flatMap fun y => if y.1 ≠ x.2.common then
        (y.2.pars.filter (·.free)).map (fun p => w x.1 y.1 p.name) else []) ++ r) =
      .ok (cs.map (fun x => (x.1, othersDone (w x.1) x.2)), r) := by
  induction cs with
  | nil => rfl
  | cons x cs ih =>
    obtain ⟨a, c⟩ := x
    have ih := ih fun q hq => h q (List.mem_cons_of_mem _ hq)
    rw [List.flatMap_cons, List.append_assoc, setOthersAll,
      setOthers_eq (w a) c.common c.srcs _ (h (a, c) (List.mem_cons_self ..)), Res.bind_ok]
    simp only []
    rw [ih, Res.bind_ok]
    rfl

theorem setNamed_eq (n : κ) (v : K) (ps : List (Par κ K)) (hd : (ps.map (·.name)).Nodup)
    (h : n ∈ ps.map (·.name)) (hb : ∀ p ∈ ps, p.name = n → p.lo ≤ v ∧ v ≤ p.hi) :
    setNamed n v ps = .ok (ps.map fun p => newVal (decide (p.name = n)) v p) := by
  induction ps with
  | nil => simp at h
  | cons p ps ih =>
    rw [List.map_cons, List.nodup_cons] at hd
    by_cases hp : p.name = n
    · rw [setNamed, if_pos hp, setValue_eq (hb p (List.mem_cons_self ..) hp), Res.bind_ok, List.map_cons]
      have : ps.map (fun p => newVal (decide (p.name = n)) v p) = ps := by
        conv_rhs => rw [← List.map_id ps]
        refine List.map_congr_left fun q hq => ?_
        have : q.name ≠ n := fun e => hd.1 (hp ▸ e ▸ List.mem_map_of_mem (f := (·.name)) hq)
        simp [newVal, this]
      rw [this]; simp [hp]
    · rw [setNamed, if_neg hp, ih hd.2, Res.bind_ok]
      · simp [hp, newVal]
      · rcases List.mem_cons.1 h with h | h
        · exact absurd h.symm hp
        · exact h
      · exact fun q hq => hb q (List.mem_cons_of_mem _ hq)

/-- The parameters of a common source after the names `ns` have been set. -/
def shapeDone (w : κ → K) (ns : List κ) (ps : List (Par κ K)) : List (Par κ K) :=
  ps.map fun p => newVal (decide (p.name ∈ ns)) (w p.name) p

@[simp] theorem shapeDone_names (w : κ → K) (ns : List κ) (ps : List (Par κ K)) :
    (shapeDone w ns ps).map (·.name) = ps.map (·.name) := by
  rw [shapeDone, List.map_map]; exact List.map_congr_left fun p _ => newVal_name ..

theorem setNamed_shape (w : κ → K) (n : κ) (ps : List (Par κ K)) :
    (ps.map fun p => newVal (decide (p.name = n)) (w n) p) = shapeDone w [n] ps := by
  refine List.map_congr_left fun p _ => ?_
  by_cases h : p.name = n
  · simp [h]
  · simp [h, newVal]

theorem shapeDone_comp (w : κ → K) (n : κ) (ns : List κ) (ps : List (Par κ K)) :
    shapeDone w ns (shapeDone w [n] ps) = shapeDone w (n :: ns) ps := by
  rw [shapeDone, shapeDone, List.map_map]
  refine List.map_congr_left fun p _ => ?_
  simp only [Function.comp, newVal_name]
  rw [newVal_comp]
  congr 1
  by_cases h1 : p.name = n <;> by_cases h2 : p.name ∈ ns <;> simp [h1, h2]

theorem shapeDone_bound {w : κ → K} {ns : List κ} {ps : List (Par κ K)} {S : κ → Prop}
    (hb : ∀ p ∈ ps, S p.name → p.lo ≤ w p.name ∧ w p.name ≤ p.hi) :
    ∀ p ∈ shapeDone w ns ps, S p.name → p.lo ≤ w p.name ∧ w p.name ≤ p.hi := by
  intro p hp hs
  obtain ⟨q, hq, rfl⟩ := List.mem_map.1 hp
  simp only [newVal_name, newVal_lo, newVal_hi] at hs ⊢
  exact hb q hq hs

theorem setShape_eq (w : κ → K) (ns : List κ) (ps : List (Par κ K)) (r : List K)
    (hd : (ps.map (·.name)).Nodup) (h : ∀ n ∈ ns, n ∈ ps.map (·.name))
    (hb : ∀ p ∈ ps, p.name ∈ ns → p.lo ≤ w p.name ∧ w p.name ≤ p.hi) :
    setShape ns ps (ns.map w ++ r) = .ok (shapeDone w ns ps, ns.map (fun n => (n, w n)), r) := by
  induction ns generalizing ps with
  | nil =>
    rw [List.map_nil, List.nil_append, setShape]
    congr 2
    conv_lhs => rw [← List.map_id ps]
    exact List.map_congr_left fun p _ => by simp [newVal]
  | cons n ns ih =>
    rw [List.map_cons, List.cons_append, setShape]
    simp only []
    rw [setNamed_eq n (w n) ps hd (h n (List.mem_cons_self ..))
      fun p hp e => e ▸ hb p hp (e ▸ List.mem_cons_self ..), Res.bind_ok, setNamed_shape,
      ih _ (by rw [shapeDone_names]; exact hd) (fun m hm => by rw [shapeDone_names]; exact h m (List.mem_cons_of_mem _ hm))
        (shapeDone_bound (S := (· ∈ ns)) fun p hp hs => hb p hp (List.mem_cons_of_mem _ hs)), Res.bind_ok,
      shapeDone_comp]
    rfl

theorem applyShape_eq (w : κ → K) (ns : List κ) (ps : List (Par κ K))
    (hd : (ps.map (·.name)).Nodup) (h : ∀ n ∈ ns, n ∈ ps.map (·.name))
    (hb : ∀ p ∈ ps, p.name ∈ ns → p.lo ≤ w p.name ∧ w p.name ≤ p.hi) :
    applyShape (ns.map fun n => (n, w n)) ps = .ok (shapeDone w ns ps) := by
  induction ns generalizing ps with
  | nil =>
    rw [List.map_nil, applyShape]
    congr 1
    conv_lhs => rw [← List.map_id ps]
    exact List.map_congr_left fun p _ => by simp [newVal]
  | cons n ns ih =>
    rw [List.map_cons, applyShape, setNamed_eq n (w n) ps hd (h n (List.mem_cons_self ..))
      fun p hp e => e ▸ hb p hp (e ▸ List.mem_cons_self ..), Res.bind_ok, setNamed_shape,
      ih _ (by rw [shapeDone_names]; exact hd) (fun m hm => by rw [shapeDone_names]; exact h m (List.mem_cons_of_mem _ hm))
        (shapeDone_bound (S := (· ∈ ns)) fun p hp hs => hb p hp (List.mem_cons_of_mem _ hs)),
      shapeDone_comp]

theorem normPar_free {norm : κ} {ps : List (Par κ K)} {p : Par κ K} (h : normPar norm ps = .ok p)
    (f : Par κ K → Par κ K) (hf : ∀ p, (f p).name = p.name) : normPar norm (ps.map f) = .ok (f p) := by
  rw [normPar, find_name ps f hf]
  rw [normPar] at h
  cases e : ps.find? (fun p => decide (p.name = norm)) with
  | none => rw [e] at h; cases h
  | some q => rw [e] at h; cases h; rfl

theorem setNorm_eq (w : κ → K) {norm : κ} {ps : List (Par κ K)} {p : Par κ K} (h : normPar norm ps = .ok p)
    (hd : (ps.map (·.name)).Nodup) (hm : p ∈ ps) (hn : p.name = norm)
    (hb : p.free = true → p.lo ≤ w norm ∧ w norm ≤ p.hi) (r : List K) :
    setNorm norm ps ((if p.free then [w norm] else []) ++ r) =
      .ok (ps.map (fun q => newVal (decide (q.name = norm) && q.free) (w q.name) q), r) := by
  unfold setNorm
  rw [h, Res.bind_ok]
  have uniq : ∀ q ∈ ps, q.name = norm → q = p := fun q hq e =>
    List.inj_on_of_nodup_map hd hq hm (e.trans hn.symm)
  by_cases hf : p.free = true
  · rw [if_pos hf, if_pos hf, List.singleton_append]
    simp only []
    rw [setNamed_eq norm _ ps hd (hn ▸ List.mem_map_of_mem (f := (·.name)) hm)
      fun q hq e => by rw [uniq q hq e]; exact hb hf, Res.bind_ok]
    congr 2
    refine List.map_congr_left fun q hq => ?_
    by_cases e : q.name = norm
    · simp [uniq q hq e, hf, hn]
    · simp [e, newVal]
  · rw [if_neg hf, if_neg hf, List.nil_append]
    congr 2
    conv_lhs => rw [← List.map_id ps]
    refine List.map_congr_left fun q hq => ?_
    by_cases e : q.name = norm
    · rw [uniq q hq e]; simp [hf, newVal]
    · simp [e, newVal]

/-- A component after its common source has been set. -/
def commonDone (norm : κ) (ns : List κ) (w : κ → K) (c : Comp κ K) : Comp κ K :=
  ⟨c.srcs.map (fun y => (y.1, if y.1 = c.common then ⟨y.2.kind, y.2.pars.map fun p =>
    newVal (decide (p.name ∈ ns) || (decide (p.name = norm) && p.free)) (w p.name) p⟩ else y.2)), c.common⟩

/-- The values are within the bounds of what is to be set in the common source. -/
def Fits (norm : κ) (ns : List κ) (w : κ → K) (c : Comp κ K) : Prop :=
  ∀ y ∈ c.srcs, y.1 = c.common → ∀ p ∈ y.2.pars, (p.name ∈ ns ∨ (p.name = norm ∧ p.free = true)) →
    p.lo ≤ w p.name ∧ w p.name ≤ p.hi

theorem setSpec_eq {c : Comp κ K} (h : (c.srcs.map Prod.fst).Nodup) {y : κ × Spectrum κ K} (hy : y ∈ c.srcs)
    (e : y.1 = c.common) (f : List (Par κ K) → List (Par κ K)) :
    setSpec c.srcs c.common (f y.2.pars) =
      c.srcs.map fun z => (z.1, if z.1 = c.common then ⟨z.2.kind, f z.2.pars⟩ else z.2) := by
  refine List.map_congr_left fun z hz => ?_
  by_cases hc : z.1 = c.common
  · have : z = y := List.inj_on_of_nodup_map h hz hy (hc.trans e.symm)
    subst this
    simp [hc]
  · simp [hc]

theorem mem_shape {norm : κ} {shape : List κ} {c : Comp κ K} (h : Ok norm shape c) {y : κ × Spectrum κ K}
    (hy : y ∈ c.srcs) (e : y.1 = c.common) : ∀ n ∈ shape, n ∈ y.2.pars.map (·.name) := by
  intro n hn
  have h1 := h.shapes n hn
  rw [← e, entry_of h.sources hy] at h1
  obtain ⟨p, hp⟩ := Option.isSome_iff_exists.1 h1
  have h2 : p.name = n := by simpa using List.find?_some hp
  exact h2 ▸ List.mem_map_of_mem (f := (·.name)) (List.mem_of_find?_eq_some hp)

theorem setCommon_eq (norm : κ) (ns : List κ) (hns : norm ∉ ns) (sh : κ → K) (w : Nat → κ → K)
    (cs : List (Nat × Comp κ K)) (r : List K) (hok : ∀ x ∈ cs, Ok norm ns x.2)
    (hs : ∀ x ∈ cs, ∀ n ∈ ns, w x.1 n = sh n) (hb : ∀ x ∈ cs, Fits norm ns (w x.1) x.2) :
    setCommon norm (ns.map fun n => (n, sh n)) cs ((cs.flatMap fun x =>
        if norm ∈ freeNames x.2 x.2.common then [w x.1 norm] else []) ++ r) =
      .ok (cs.map (fun x => (x.1, commonDone norm ns (w x.1) x.2)), r) := by
  induction cs with
  | nil => rfl
  | cons x cs ih =>
    obtain ⟨a, c⟩ := x
    have ih := ih (fun q hq => hok q (List.mem_cons_of_mem _ hq)) (fun q hq => hs q (List.mem_cons_of_mem _ hq))
      (fun q hq => hb q (List.mem_cons_of_mem _ hq))
    have o := hok (a, c) (List.mem_cons_self ..)
    have s1 := hs (a, c) (List.mem_cons_self ..)
    have b1 := hb (a, c) (List.mem_cons_self ..)
    simp only [] at o s1 b1
    obtain ⟨y, hy, e, hsrc, _⟩ := common_of o
    obtain ⟨p, hp, hn, hnp, _, hfree⟩ := normPar_of o hy e
    have hd := o.params y hy
    have hsh : (ns.map fun n => (n, sh n)) = ns.map fun n => (n, w a n) :=
      List.map_congr_left fun n hn => by rw [s1 n hn]
    rw [List.flatMap_cons, List.append_assoc, setCommon, hsrc, Res.bind_ok, hsh,
      applyShape_eq (w a) ns y.2.pars hd (mem_shape o hy e) (fun q hq h => b1 y hy e q hq (Or.inl h)), Res.bind_ok]
    have hnp2 : normPar norm (shapeDone (w a) ns y.2.pars) = .ok p := by
      rw [shapeDone, normPar_free hnp _ (fun _ => newVal_name ..), hn]
      simp [hns, newVal]
    have hif : (if norm ∈ freeNames c c.common then [w a norm] else []) = if p.free then [w a norm] else [] := by
      by_cases hf : p.free = true
      · rw [if_pos hf, if_pos (hfree.1 hf)]
      · rw [if_neg hf, if_neg (mt hfree.2 hf)]
    simp only []
    have hm2 : p ∈ shapeDone (w a) ns y.2.pars :=
      List.mem_map.2 ⟨p, hp, by rw [hn]; simp [hns, newVal]⟩
    rw [hif, setNorm_eq (w a) hnp2 (by rw [shapeDone_names]; exact hd) hm2 hn
      (fun hf => by rw [← hn]; exact b1 y hy e p hp (Or.inr ⟨hn, hf⟩)), Res.bind_ok]
    simp only []
    rw [← hsh, ih, Res.bind_ok, List.map_cons, commonDone]
    rw [setSpec_eq o.sources hy e fun l => (shapeDone (w a) ns l).map
      (fun q => newVal (decide (q.name = norm) && q.free) (w a q.name) q)]
    congr 4
    refine congrArg (fun f => Comp.mk (List.map f c.srcs) c.common) ?_
    funext z
    congr 1
    split
    · congr 1
      rw [shapeDone, List.map_map]
      refine List.map_congr_left fun q _ => ?_
      simp only [Function.comp, newVal_name, newVal_free, newVal_comp]
    · rfl

/-- A component with all its driven parameters set. -/
def assign (norm : κ) (ns : List κ) (w : κ → κ → K) (c : Comp κ K) : Comp κ K :=
  ⟨c.srcs.map (fun y => (y.1, ⟨y.2.kind, y.2.pars.map fun p => newVal (if y.1 = c.common then
    decide (p.name ∈ ns) || (decide (p.name = norm) && p.free) else p.free) (w y.1 p.name) p⟩)), c.common⟩

theorem done_done (norm : κ) (ns : List κ) (w : κ → κ → K) (c : Comp κ K) :
    commonDone norm ns (w c.common) (othersDone w c) = assign norm ns w c := by
  unfold commonDone othersDone assign otherDone
  simp only [List.map_map]
  congr 1
  refine List.map_congr_left fun y _ => ?_
  simp only [Function.comp]
  congr 1
  by_cases h : y.1 = c.common
  · simp only [if_pos h, List.map_map]
    congr 1
    refine List.map_congr_left fun q _ => ?_
    simp [Function.comp, h, newVal]
  · simp only [if_neg h]
    congr 1
    exact List.map_congr_left fun q _ => by simp [h]

/-- Setting the shape of the first component twice changes nothing. -/
theorem done_twice (norm : κ) (ns : List κ) (w : κ → K) {c : Comp κ K} (h : (c.srcs.map Prod.fst).Nodup)
    {y : κ × Spectrum κ K} (hy : y ∈ c.srcs) (e : y.1 = c.common) :
    commonDone norm ns w { c with srcs := setSpec c.srcs c.common (shapeDone w ns y.2.pars) } =
      commonDone norm ns w c := by
  unfold commonDone
  rw [setSpec_eq h hy e (shapeDone w ns)]
  simp only [List.map_map]
  congr 1
  refine List.map_congr_left fun z _ => ?_
  simp only [Function.comp]
  congr 1
  by_cases hz : z.1 = c.common
  · simp only [if_pos hz, shapeDone, List.map_map]
    congr 1
    refine List.map_congr_left fun q _ => ?_
    simp only [Function.comp, newVal_name, newVal_free, newVal_comp]
    congr 1
    by_cases q1 : q.name ∈ ns <;> simp [q1]
  · simp only [if_neg hz]

/-- Same names, freedom and kinds. -/
structure Like (c c' : Comp κ K) : Prop where
  common : c'.common = c.common
  keys : c'.srcs.map Prod.fst = c.srcs.map Prod.fst
  names : ∀ n, freeNames c' n = freeNames c n
  somes : ∀ n p, (entry c' n p).isSome = (entry c n p).isSome
  params : (∀ y ∈ c.srcs, (y.2.pars.map (·.name)).Nodup) → ∀ y ∈ c'.srcs, (y.2.pars.map (·.name)).Nodup

/-- A change of the parameters of the sources that keeps names and freedom. -/
theorem like_map (c : Comp κ K) (f : κ × Spectrum κ K → Spectrum κ K) (g : κ × Spectrum κ K → Par κ K → Par κ K)
    (hf : ∀ y, (f y).pars = y.2.pars.map (g y)) (hg : ∀ y p, (g y p).name = p.name ∧ (g y p).free = p.free) :
    Like c ⟨c.srcs.map fun y => (y.1, f y), c.common⟩ where
  common := rfl
  keys := by rw [List.map_map]; rfl
  names n := by
    unfold freeNames
    rw [find_map]
    cases c.srcs.find? (fun y => decide (y.1 = n)) with
    | none => rfl
    | some y =>
      simp only [Option.map_some]
      rw [hf, List.filter_map, List.map_map]
      have : (fun p : Par κ K => p.free) ∘ g y = fun p => p.free := funext fun p => (hg y p).2
      rw [this]
      exact List.map_congr_left fun p _ => (hg y p).1
  somes n p := by
    unfold entry
    rw [find_map]
    cases c.srcs.find? (fun y => decide (y.1 = n)) with
    | none => rfl
    | some y =>
      simp only [Option.map_some]
      rw [hf, find_name _ _ fun p => (hg y p).1, Option.isSome_map]
  params h y hy := by
    obtain ⟨z, hz, rfl⟩ := List.mem_map.1 hy
    simp only []
    rw [hf, List.map_map]
    have : (fun p : Par κ K => p.name) ∘ g z = fun p => p.name := funext fun p => (hg z p).1
    rw [this]
    exact h z hz

theorem like_assign (norm : κ) (ns : List κ) (w : κ → κ → K) (c : Comp κ K) : Like c (assign norm ns w c) :=
  like_map c _ (fun y p => newVal (if y.1 = c.common then
    decide (p.name ∈ ns) || (decide (p.name = norm) && p.free) else p.free) (w y.1 p.name) p) (fun _ => rfl)
    fun y p => ⟨newVal_name .., newVal_free ..⟩

theorem like_others (w : κ → κ → K) (c : Comp κ K) : Like c (othersDone w c) :=
  like_map c _ (fun y p => newVal (decide (y.1 ≠ c.common) && p.free) (w y.1 p.name) p) (fun _ => rfl)
    fun y p => ⟨newVal_name .., newVal_free ..⟩

theorem Ok.like {norm : κ} {ns : List κ} {c c' : Comp κ K} (h : Ok norm ns c) (l : Like c c') : Ok norm ns c' where
  sources := by rw [l.keys]; exact h.sources
  params := l.params h.params
  common := by rw [l.keys, l.common]; exact h.common
  norms := by rw [l.common, l.somes]; exact h.norms
  shapes p hp := by rw [l.common, l.somes]; exact h.shapes p hp

theorem entry_assign (norm : κ) (ns : List κ) (w : κ → κ → K) (c : Comp κ K) (n p : κ) :
    entry (assign norm ns w c) n p = (entry c n p).map fun q => newVal (if n = c.common then
      decide (q.name ∈ ns) || (decide (q.name = norm) && q.free) else q.free) (w n p) q := by
  unfold entry assign
  simp only []
  rw [find_map]
  cases e : c.srcs.find? (fun y => decide (y.1 = n)) with
  | none => rfl
  | some y =>
    have hy : y.1 = n := by simpa using List.find?_some e
    simp only [Option.map_some]
    rw [find_name _ _ fun p => newVal_name .., hy]
    cases e2 : y.2.pars.find? (fun q => decide (q.name = p)) with
    | none => rfl
    | some q =>
      have hq : q.name = p := by simpa using List.find?_some e2
      simp only [Option.map_some, hq]

end Verif.Comp1
