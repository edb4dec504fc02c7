import Mathlib.Algebra.Order.Ring.Rat
import Mathlib.Algebra.Field.Rat
import Mathlib.Tactic.NormNum
import Verif.Comp1.Lemmas
/-
C59: the free parameters of a composite likelihood.
-/
set_option linter.unusedSectionVars false
set_option linter.unusedSimpArgs false
set_option linter.unusedVariables false
namespace Verif.Comp1
open SrcModel (Par)
open Verif.Comp1.Spec

variable {κ K : Type} [DecidableEq κ]

/-! ### Reading -/

theorem freeNorms_eq {norm : κ} {shape : List κ} (cs : List (Nat × Comp κ K)) (h : ∀ x ∈ cs, Ok norm shape x.2) :
    ∃ ps, freeNorms norm cs = .ok ps ∧
      ps.map some = (cs.filter fun x => norm ∈ freeNames x.2 x.2.common).map
        fun x => entry x.2 x.2.common norm := by
  induction cs with
  | nil => exact ⟨[], rfl, rfl⟩
  | cons x cs ih =>
    obtain ⟨a, c⟩ := x
    obtain ⟨ps, h1, h2⟩ := ih fun x hx => h x (List.mem_cons_of_mem _ hx)
    have o := h (a, c) (List.mem_cons_self ..)
    obtain ⟨y, hy, e, hsrc, _⟩ := common_of o
    obtain ⟨p, hp, hn, hnp, he, hfree⟩ := normPar_of o hy e
    refine ⟨if p.free then p :: ps else ps, by rw [freeNorms, hsrc, Res.bind_ok, hnp, Res.bind_ok, h1, Res.bind_ok], ?_⟩
    by_cases hf : p.free = true
    · have hm : norm ∈ freeNames c c.common := hfree.1 hf
      rw [if_pos hf, List.map_cons, h2, List.filter_cons_of_pos (by simpa using hm), List.map_cons]
      rw [show entry (a, c).2 (a, c).2.common norm = some p from he]
    · have hm : norm ∉ freeNames c c.common := mt hfree.2 hf
      rw [if_neg hf, h2, List.filter_cons_of_neg (by simpa using hm)]

theorem others_eq {s : State κ K} (h : Tidy s) {x : Nat × Comp κ K} (hx : x ∈ s.comps) :
    (otherFree x.2).map some = (((x.2.srcs.map Prod.fst).filter (· ≠ x.2.common)).flatMap fun n =>
      (freeNames x.2 n).map fun p => lookup s (x.1, n, p)) := by
  have o := ok_of_tidy h hx
  rw [others_flat o.sources fun n p => lookup s (x.1, n, p), otherFree, List.map_flatMap]
  refine List.flatMap_congr fun y hy => ?_
  split
  · refine List.map_congr_left fun p hp => ?_
    rw [lookup_of h hx, find_par o.sources o.params hy (List.mem_filter.1 hp).1]
  · rfl

theorem countLoop_eq {norm : κ} {shape : List κ} (cs : List (Nat × Comp κ K)) (h : ∀ x ∈ cs, Ok norm shape x.2)
    {ps : List (Par κ K)} (hp : freeNorms norm cs = .ok ps) (n : Nat) :
    countLoop norm false cs n = .ok (n + (cs.flatMap fun x => otherFree x.2).length + ps.length) := by
  induction cs generalizing ps n with
  | nil => cases hp; rfl
  | cons x cs ih =>
    obtain ⟨a, c⟩ := x
    have o := h (a, c) (List.mem_cons_self ..)
    obtain ⟨y, hy, e, hsrc, _⟩ := common_of o
    obtain ⟨p, _, hn, hnp, he, hfree⟩ := normPar_of o hy e
    rw [freeNorms, hsrc, Res.bind_ok, hnp, Res.bind_ok, Res.bind_eq_ok] at hp
    obtain ⟨ps', h1, h2⟩ := hp
    have hl : ps.length = ps'.length + if p.free then 1 else 0 := by
      cases h2; split <;> rfl
    have hfold : ∀ (m : List (κ × Spectrum κ K)) (n : Nat),
        m.foldl (fun n x => if c.common ≠ x.1 then n + (x.2.pars.filter (·.free)).length else n) n =
          n + (m.flatMap fun x => if x.1 ≠ c.common then x.2.pars.filter (·.free) else []).length := by
      intro m
      induction m with
      | nil => intro n; rfl
      | cons z m im =>
        intro n
        rw [List.foldl_cons, im, List.flatMap_cons, List.length_append]
        by_cases hz : z.1 = c.common
        · simp [hz]
        · simp only [ne_eq, hz, Ne.symm hz, not_false_eq_true, if_true]; omega
    rw [countLoop]
    simp only []
    rw [hsrc, Res.bind_ok]
    simp only [Bool.false_eq_true, if_false]
    rw [hnp, Res.bind_ok, ih (fun x hx => h x (List.mem_cons_of_mem _ hx)) h1, hfold, List.flatMap_cons,
      List.length_append, hl]
    simp only [otherFree]
    congr 1
    split <;> omega

/-- The number of free parameters of a composite is the number of slots, the list of free
parameters has that length, and its `k`-th entry is the first parameter that the `k`-th slot
drives. -/
theorem C59_read (s : State κ K) (h : Tidy s) :
    ∃ ps, getFreeParams s = .ok ps ∧ getNumFreeParams s = .ok (slots s).length ∧
      ps.map some = (slots s).map fun g => g.head?.bind (lookup s) := by
  obtain ⟨norms, hn1, hn2⟩ := freeNorms_eq s.comps fun x hx => ok_of_tidy h hx
  obtain ⟨⟨a, c⟩, cs, hc⟩ := List.exists_cons_of_ne_nil h.nonempty
  have hx : (a, c) ∈ s.comps := hc ▸ List.mem_cons_self ..
  have o := ok_of_tidy h hx
  obtain ⟨y, hy, e, hsrc, hfn⟩ := common_of o
  set shp := (y.2.pars.filter (·.free)).filter (fun p => p.name ≠ s.norm) with hshp
  have hshape : shapeNames s = shp.map (·.name) := by
    rw [shapeNames, hc]
    simp only []
    rw [hfn, hshp, List.filter_map]
    rfl
  have hget : getFreeParams s = .ok (s.comps.flatMap (fun x => otherFree x.2) ++ shp ++ norms) := by
    rw [getFreeParams, hc]
    simp only []
    rw [hsrc, Res.bind_ok, ← hc, hn1, Res.bind_ok]
  have hmap : (s.comps.flatMap (fun x => otherFree x.2) ++ shp ++ norms).map some =
      (slots s).map fun g => g.head?.bind (lookup s) := by
    rw [slots, List.map_append, List.map_append, List.map_append, List.map_append]
    congr 1
    · congr 1
      · rw [List.map_flatMap, List.map_flatMap]
        refine List.flatMap_congr fun x hx => ?_
        rw [others_eq h hx, List.map_flatMap]
        refine List.flatMap_congr fun n _ => ?_
        rw [List.map_map]; rfl
      · rw [hshape, List.map_map, List.map_map]
        refine List.map_congr_left fun p hp => ?_
        simp only [Function.comp, hc, List.map_cons, List.head?_cons, Option.bind_some]
        rw [lookup_of h hx, show (a, c).2.common = y.1 from e.symm, find_par o.sources o.params hy]
        exact (List.mem_filter.1 (List.mem_filter.1 hp).1).1
    · rw [hn2, List.map_map]
      refine List.map_congr_left fun x hx => ?_
      simp only [Function.comp, List.head?_cons, Option.bind_some]
      rw [lookup_of h (List.mem_filter.1 hx).1]
  refine ⟨_, hget, ?_, hmap⟩
  have hlen := congrArg List.length hmap
  rw [List.length_map, List.length_map] at hlen
  rw [← hlen, getNumFreeParams, hc]
  rw [hc] at hn1
  -- the first component
  obtain ⟨p, _, hnm, hnp, he, hfree⟩ := normPar_of o hy e
  rw [freeNorms, hsrc, Res.bind_ok, hnp, Res.bind_ok, Res.bind_eq_ok] at hn1
  obtain ⟨ps', h1, h2⟩ := hn1
  have hl : norms.length = ps'.length + if p.free then 1 else 0 := by
    cases h2; split <;> rfl
  have hfold : ∀ (m : List (κ × Spectrum κ K)) (n : Nat),
      m.foldl (fun n x => if c.common ≠ x.1 then n + (x.2.pars.filter (·.free)).length else n) n =
        n + (m.flatMap fun x => if x.1 ≠ c.common then x.2.pars.filter (·.free) else []).length := by
    intro m
    induction m with
    | nil => intro n; rfl
    | cons z m im =>
      intro n
      rw [List.foldl_cons, im, List.flatMap_cons, List.length_append]
      by_cases hz : z.1 = c.common
      · simp [hz]
      · simp only [ne_eq, hz, Ne.symm hz, not_false_eq_true, if_true]; omega
  have hfold2 : ∀ (m : List (Par κ K)) (n : Nat),
      m.foldl (fun n p => if p.name ≠ s.norm then n + 1 else n) n =
        n + (m.filter (fun p => p.name ≠ s.norm)).length := by
    intro m
    induction m with
    | nil => intro n; rfl
    | cons z m im =>
      intro n
      rw [List.foldl_cons, im]
      by_cases hz : z.name = s.norm
      · simp [hz]
      · simp only [ne_eq, hz, not_false_eq_true, if_true, decide_true, decide_false, List.filter_cons_of_pos,
          List.length_cons]; omega
  rw [countLoop]
  simp only []
  rw [hsrc, Res.bind_ok]
  simp only [if_true]
  rw [hnp, Res.bind_ok, countLoop_eq cs (fun x hx => ok_of_tidy h (hc ▸ List.mem_cons_of_mem _ hx)) h1, hfold2, hfold,
    List.length_append, List.length_append, List.flatMap_cons, List.length_append, hl, ← hshp]
  simp only [otherFree]
  congr 1
  split <;> omega

/-! ### Setting -/

variable [Field K] [LinearOrder K] [IsStrictOrderedRing K]

theorem shape_not_norm (s : State κ K) : s.norm ∉ shapeNames s := by
  unfold shapeNames
  split
  · simp
  · intro h; simpa using (List.mem_filter.1 h).2

/-- The vector of values that a valuation gives to the slots. -/
def vals (s : State κ K) (w : Nat → κ → κ → K) (sh : κ → K) : List K :=
  (s.comps.flatMap fun x => x.2.srcs.flatMap fun y => if y.1 ≠ x.2.common then
        (y.2.pars.filter (·.free)).map (fun p => w x.1 y.1 p.name) else []) ++
    ((shapeNames s).map sh ++
      s.comps.flatMap fun x => if s.norm ∈ freeNames x.2 x.2.common then [w x.1 x.2.common s.norm] else [])

/-- The state after the driven parameters have got the values of a valuation. -/
def assigned (s : State κ K) (w : Nat → κ → κ → K) : State κ K :=
  { s with comps := s.comps.map (fun x => (x.1, assign s.norm (shapeNames s) (w x.1) x.2)) }

theorem set_vals (dflt : Par κ K) (s : State κ K) (h : Tidy s) (w : Nat → κ → κ → K) (sh : κ → K) (r : List K)
    (hs : ∀ x ∈ s.comps, ∀ n ∈ shapeNames s, w x.1 x.2.common n = sh n)
    (ho : ∀ x ∈ s.comps, ∀ y ∈ x.2.srcs, y.1 ≠ x.2.common → ∀ p ∈ y.2.pars, p.free = true →
      p.lo ≤ w x.1 y.1 p.name ∧ w x.1 y.1 p.name ≤ p.hi)
    (hc : ∀ x ∈ s.comps, Fits s.norm (shapeNames s) (w x.1 x.2.common) x.2) :
    setFreeParamValues dflt s (vals s w sh ++ r) = .ok (syncParams dflt (assigned s w)) := by
  obtain ⟨⟨a, c⟩, cs, hcs⟩ := List.exists_cons_of_ne_nil h.nonempty
  have hx : (a, c) ∈ s.comps := hcs ▸ List.mem_cons_self ..
  have o := ok_of_tidy h hx
  have o' := o.like (like_others (w a) c)
  obtain ⟨y, hy, e, hsrc, hfn⟩ := common_of o'
  rw [setFreeParamValues, vals, List.append_assoc, setOthersAll_eq w s.comps _ ho, Res.bind_ok, hcs]
  simp only [List.map_cons]
  have hns : ((y.2.pars.filter (·.free)).map (·.name)).filter (· ≠ s.norm) = shapeNames s := by
    rw [← hfn, (like_others (w a) c).common, (like_others (w a) c).names, shapeNames, hcs]
  rw [hsrc, Res.bind_ok, hns, List.append_assoc]
  have hshv : (shapeNames s).map sh = (shapeNames s).map (w a c.common) :=
    List.map_congr_left fun n hn => (hs _ hx n hn).symm
  have fits' : ∀ x ∈ s.comps, Fits s.norm (shapeNames s) (w x.1 x.2.common) (othersDone (w x.1) x.2) := by
    intro x hx z hz ez p hp hq
    obtain ⟨z', hz', rfl⟩ := List.mem_map.1 hz
    obtain ⟨p', hp', rfl⟩ := List.mem_map.1 hp
    simp only [newVal_name, newVal_free, newVal_lo, newVal_hi] at hq ⊢
    exact hc x hx z' hz' ez p' hp' hq
  rw [hshv, setShape_eq (w a c.common) (shapeNames s) y.2.pars _ (o'.params y hy) (mem_shape o' hy e)
    (fun p hp hq => fits' _ hx y hy e p hp (Or.inl hq)), Res.bind_ok]
  simp only []
  set first : Comp κ K := { othersDone (w a) c with
    srcs := setSpec (othersDone (w a) c).srcs (othersDone (w a) c).common (shapeDone (w a c.common) (shapeNames s) y.2.pars) }
    with hfirst
  have lf : Like (othersDone (w a) c) first := by
    rw [hfirst, setSpec_eq o'.sources hy e (shapeDone (w a c.common) (shapeNames s))]
    refine like_map _ _ (fun z p => if z.1 = (othersDone (w a) c).common then
      newVal (decide (p.name ∈ shapeNames s)) (w a c.common p.name) p else p) (fun z => ?_) (fun z p => ?_)
    · split
      · rfl
      · rw [List.map_id']
    · split
      · exact ⟨newVal_name .., newVal_free ..⟩
      · exact ⟨rfl, rfl⟩
  -- all components before the last loop
  set ds : List (Nat × Comp κ K) := (a, first) :: cs.map (fun x => (x.1, othersDone (w x.1) x.2)) with hds
  have hflat : (List.flatMap (fun x : Nat × Comp κ K =>
        if s.norm ∈ freeNames x.2 x.2.common then [w x.1 x.2.common s.norm] else []) ((a, c) :: cs)) =
      ds.flatMap fun x => if s.norm ∈ freeNames x.2 x.2.common then [w x.1 x.2.common s.norm] else [] := by
    rw [hds, List.flatMap_cons, List.flatMap_cons, List.flatMap_map]
    congr 1
    · simp only []
      rw [lf.common, lf.names, (like_others (w a) c).common, (like_others (w a) c).names]
    · refine List.flatMap_congr fun x _ => ?_
      simp only []
      rw [(like_others (w x.1) x.2).common, (like_others (w x.1) x.2).names]
  have dlike : ∀ z ∈ ds, ∃ x ∈ s.comps, z.1 = x.1 ∧ Like (othersDone (w x.1) x.2) z.2 := by
    intro z hz
    rcases List.mem_cons.1 hz with rfl | hz
    · exact ⟨_, hx, rfl, lf⟩
    · obtain ⟨x, hx, rfl⟩ := List.mem_map.1 hz
      exact ⟨x, hcs ▸ List.mem_cons_of_mem _ hx, rfl,
        ⟨rfl, rfl, fun _ => rfl, fun _ _ => rfl, fun h => h⟩⟩
  have kept : (fun n => (n, w a c.common n)) = fun n => (n, w a c.common n) := rfl
  -- the common source is only known through its component
  let wc : Nat → κ → K := fun i => match s.comps.find? (fun x => x.1 = i) with
    | some x => w i x.2.common
    | none => fun _ => 0
  have hnd : (s.comps.map Prod.fst).Nodup := h.keys.imp fun h => Nat.ne_of_lt h
  have hwc : ∀ x ∈ s.comps, wc x.1 = w x.1 x.2.common := by
    intro x hx
    simp only [wc]
    rw [find_key hnd hx]
  have hflat2 : (ds.flatMap fun x => if s.norm ∈ freeNames x.2 x.2.common then [w x.1 x.2.common s.norm] else []) =
      ds.flatMap fun x => if s.norm ∈ freeNames x.2 x.2.common then [wc x.1 s.norm] else [] := by
    refine List.flatMap_congr fun z hz => ?_
    obtain ⟨x, hx, e1, l⟩ := dlike z hz
    rw [e1, hwc x hx, l.common]
    rfl
  rw [hflat, hflat2, setCommon_eq s.norm (shapeNames s) (shape_not_norm s) (w a c.common) wc ds r
    (fun z hz => by
      obtain ⟨x, hx, _, l⟩ := dlike z hz
      exact ((ok_of_tidy h hx).like (like_others (w x.1) x.2)).like l)
    (fun z hz n hn => by
      obtain ⟨x, hx, e1, l⟩ := dlike z hz
      rw [e1, hwc x hx, hs x hx n hn, ← hs _ ‹(a, c) ∈ s.comps› n hn])
    (fun z hz => by
      rcases List.mem_cons.1 hz with rfl | hz
      · simp only []
        rw [show wc a = w a c.common from hwc _ ‹(a, c) ∈ s.comps›]
        intro z hz ez p hp hq
        rw [hfirst, setSpec_eq o'.sources hy e (shapeDone (w a c.common) (shapeNames s))] at hz
        obtain ⟨z', hz', rfl⟩ := List.mem_map.1 hz
        simp only [] at ez hp
        rw [if_pos ez] at hp
        obtain ⟨p', hp', rfl⟩ := List.mem_map.1 hp
        simp only [newVal_name, newVal_free, newVal_lo, newVal_hi] at hq ⊢
        exact fits' _ ‹(a, c) ∈ s.comps› z' hz' ez p' hp' hq
      · obtain ⟨x, hx, rfl⟩ := List.mem_map.1 hz
        have hx' : x ∈ s.comps := hcs ▸ List.mem_cons_of_mem _ hx
        rw [hwc x hx']
        exact fits' x hx'), Res.bind_ok]
  rw [assigned]
  congr 3
  rw [hds, hcs, List.map_cons, List.map_cons]
  refine congrArg₂ List.cons ?_ ?_
  · simp only []
    rw [show wc a = w a c.common from hwc _ hx, hfirst,
      done_twice s.norm (shapeNames s) (w a c.common) o'.sources hy e, done_done]
  · rw [List.map_map]
    refine List.map_congr_left fun x hx => ?_
    have hx' : x ∈ s.comps := hcs ▸ List.mem_cons_of_mem _ hx
    simp only [Function.comp]
    rw [hwc x hx', done_done]

end Verif.Comp1
