import Mathlib.Data.List.GetD
import Verif.Comp1.Props
/-
C59: setting the free parameters of a composite likelihood.
-/
set_option linter.unusedSectionVars false
set_option linter.unusedSimpArgs false
set_option linter.unusedVariables false
namespace Verif.Comp1
open SrcModel (Par)
open Verif.Comp1.Spec

variable {κ K : Type} [DecidableEq κ]

theorem mem_slots {s : State κ K} {g : List (Nat × κ × κ)} : g ∈ slots s ↔
    (∃ x ∈ s.comps, ∃ n ∈ x.2.srcs.map Prod.fst, n ≠ x.2.common ∧ ∃ p ∈ freeNames x.2 n, g = [(x.1, n, p)]) ∨
    (∃ p ∈ shapeNames s, g = s.comps.map fun x => (x.1, x.2.common, p)) ∨
    (∃ x ∈ s.comps, s.norm ∈ freeNames x.2 x.2.common ∧ g = [(x.1, x.2.common, s.norm)]) := by
  unfold slots
  rw [List.mem_append, List.mem_append, or_assoc]
  refine or_congr ?_ (or_congr ?_ ?_)
  · rw [List.mem_flatMap]
    refine exists_congr fun x => and_congr_right fun _ => ?_
    rw [List.mem_flatMap]
    refine exists_congr fun n => ?_
    rw [List.mem_filter, and_assoc]
    refine and_congr_right fun _ => and_congr (by simp) ?_
    rw [List.mem_map]
    exact exists_congr fun p => and_congr_right fun _ => eq_comm
  · rw [List.mem_map]
    exact exists_congr fun p => and_congr_right fun _ => eq_comm
  · rw [List.mem_map]
    refine exists_congr fun x => ?_
    rw [List.mem_filter, and_assoc]
    exact and_congr_right fun _ => and_congr (by simp) eq_comm

theorem freeNames_nodup {c : Comp κ K} (h2 : ∀ y ∈ c.srcs, (y.2.pars.map (·.name)).Nodup) (n : κ) :
    (freeNames c n).Nodup := by
  unfold freeNames
  split
  · rename_i y e
    exact (h2 y (List.mem_of_find?_eq_some e)).sublist (List.filter_sublist.map _)
  · exact List.nodup_nil

theorem keys_inj {s : State κ K} (h : Tidy s) {x y : Nat × Comp κ K} (hx : x ∈ s.comps) (hy : y ∈ s.comps)
    (e : x.1 = y.1) : x = y :=
  List.inj_on_of_nodup_map (h.keys.imp fun h => Nat.ne_of_lt h) hx hy e

/-- No parameter is driven by two slots. -/
theorem slots_disjoint {s : State κ K} (h : Tidy s) :
    (slots s).Pairwise fun g g' => ∀ x ∈ g, x ∉ g' := by
  have hnd : s.comps.Pairwise fun x y => x.1 ≠ y.1 :=
    (List.pairwise_map.1 h.keys).imp fun h => Nat.ne_of_lt h
  unfold slots
  rw [List.pairwise_append, List.pairwise_append]
  refine ⟨⟨?_, ?_, ?_⟩, ?_, ?_⟩
  · rw [List.pairwise_flatMap]
    refine ⟨fun x hx => ?_, hnd.imp_of_mem fun {x y} hx hy hne g hg g' hg' z hz hz' => ?_⟩
    · rw [List.pairwise_flatMap]
      refine ⟨fun n hn => ?_, ?_⟩
      · rw [List.pairwise_map]
        refine (freeNames_nodup (h.params x hx) n).imp fun hne z hz hz' => ?_
        rw [List.mem_singleton] at hz hz'
        exact hne (by rw [hz] at hz'; exact congrArg (fun t => t.2.2) hz')
      · refine ((h.sources x hx).filter _).imp fun hne g hg g' hg' z hz hz' => ?_
        obtain ⟨p, _, rfl⟩ := List.mem_map.1 hg
        obtain ⟨p', _, rfl⟩ := List.mem_map.1 hg'
        rw [List.mem_singleton] at hz hz'
        exact hne (by rw [hz] at hz'; exact congrArg (fun t => t.2.1) hz')
    · obtain ⟨n, _, hg⟩ := List.mem_flatMap.1 hg
      obtain ⟨p, _, rfl⟩ := List.mem_map.1 hg
      obtain ⟨n', _, hg'⟩ := List.mem_flatMap.1 hg'
      obtain ⟨p', _, rfl⟩ := List.mem_map.1 hg'
      rw [List.mem_singleton] at hz hz'
      exact hne (by rw [hz] at hz'; exact congrArg (fun t => t.1) hz')
  · rw [List.pairwise_map]
    have hd : (shapeNames s).Nodup := by
      unfold shapeNames
      split
      · exact List.nodup_nil
      · rename_i a c cs e
        exact (freeNames_nodup (h.params (a, c) (e ▸ List.mem_cons_self ..)) _).filter _
    refine hd.imp fun hne z hz hz' => ?_
    obtain ⟨x, _, rfl⟩ := List.mem_map.1 hz
    obtain ⟨y, _, e⟩ := List.mem_map.1 hz'
    exact hne (congrArg (fun t => t.2.2) e).symm
  · intro g hg g' hg' z hz hz'
    obtain ⟨x, hx, hg⟩ := List.mem_flatMap.1 hg
    obtain ⟨n, hn, hg⟩ := List.mem_flatMap.1 hg
    obtain ⟨p, _, rfl⟩ := List.mem_map.1 hg
    obtain ⟨p', _, rfl⟩ := List.mem_map.1 hg'
    obtain ⟨y, hy, e⟩ := List.mem_map.1 hz'
    rw [List.mem_singleton] at hz
    subst hz
    obtain rfl := keys_inj h hy hx (congrArg (fun t => t.1) e)
    have hne : n ≠ y.2.common := by simpa using (List.mem_filter.1 hn).2
    exact hne (congrArg (fun t => t.2.1) e).symm
  · rw [List.pairwise_map]
    refine (hnd.filter _).imp fun hne z hz hz' => ?_
    rw [List.mem_singleton] at hz hz'
    exact hne (by rw [hz] at hz'; exact congrArg (fun t => t.1) hz')
  · intro g hg g' hg' z hz hz'
    obtain ⟨y, hy, rfl⟩ := List.mem_map.1 hg'
    rw [List.mem_singleton] at hz'
    subst hz'
    rcases List.mem_append.1 hg with hg | hg
    · obtain ⟨x, hx, hg⟩ := List.mem_flatMap.1 hg
      obtain ⟨n, hn, hg⟩ := List.mem_flatMap.1 hg
      obtain ⟨p, _, rfl⟩ := List.mem_map.1 hg
      rw [List.mem_singleton] at hz
      obtain rfl := keys_inj h (List.mem_filter.1 hy).1 hx (congrArg (fun t => t.1) hz)
      have hne : n ≠ y.2.common := by simpa using (List.mem_filter.1 hn).2
      exact hne (congrArg (fun t => t.2.1) hz).symm
    · obtain ⟨p, hp, rfl⟩ := List.mem_map.1 hg
      obtain ⟨x, hx, e⟩ := List.mem_map.1 hz
      have : p = s.norm := congrArg (fun t => t.2.2) e
      subst this
      unfold shapeNames at hp
      split at hp
      · cases hp
      · simpa using (List.mem_filter.1 hp).2

theorem free_iff {c : Comp κ K} (h : (c.srcs.map Prod.fst).Nodup) (h2 : ∀ y ∈ c.srcs, (y.2.pars.map (·.name)).Nodup)
    {n p : κ} {q : Par κ K} (hq : entry c n p = some q) :
    q.name = p ∧ n ∈ c.srcs.map Prod.fst ∧ (q.free = true ↔ p ∈ freeNames c n) := by
  unfold entry at hq
  split at hq
  · rename_i y e
    have hy := List.mem_of_find?_eq_some e
    have hn : y.1 = n := by simpa using List.find?_some e
    have hqm := List.mem_of_find?_eq_some hq
    have hqn : q.name = p := by simpa using List.find?_some hq
    refine ⟨hqn, hn ▸ List.mem_map_of_mem (f := Prod.fst) hy, ?_⟩
    rw [← hn, names_of h hy]
    constructor
    · exact fun hf => List.mem_map.2 ⟨q, List.mem_filter.2 ⟨hqm, hf⟩, hqn⟩
    · intro hm
      obtain ⟨q', hq', e2⟩ := List.mem_map.1 hm
      obtain ⟨m1, m2⟩ := List.mem_filter.1 hq'
      rwa [← List.inj_on_of_nodup_map (h2 y hy) m1 hqm (e2.trans hqn.symm)]
  · cases hq

/-- A parameter that exists is in a slot exactly if the loops set it. -/
theorem driven_iff {s : State κ K} (h : Tidy s) {x : Nat × Comp κ K} (hx : x ∈ s.comps) {n p : κ} {q : Par κ K}
    (hq : entry x.2 n p = some q) :
    (if n = x.2.common then decide (q.name ∈ shapeNames s) || (decide (q.name = s.norm) && q.free) else q.free) = true ↔
      ∃ g ∈ slots s, (x.1, n, p) ∈ g := by
  obtain ⟨hqn, hn, hf⟩ := free_iff (h.sources x hx) (h.params x hx) hq
  constructor
  · intro hd
    split at hd
    · rename_i e
      subst e
      rw [Bool.or_eq_true, Bool.and_eq_true, decide_eq_true_eq, decide_eq_true_eq, hqn] at hd
      rcases hd with hd | ⟨rfl, h2⟩
      · exact ⟨_, mem_slots.2 (Or.inr (Or.inl ⟨p, hd, rfl⟩)), List.mem_map.2 ⟨x, hx, rfl⟩⟩
      · exact ⟨_, mem_slots.2 (Or.inr (Or.inr ⟨x, hx, hf.1 h2, rfl⟩)), List.mem_singleton.2 rfl⟩
    · rename_i e
      exact ⟨_, mem_slots.2 (Or.inl ⟨x, hx, n, hn, e, p, hf.1 hd, rfl⟩), List.mem_singleton.2 rfl⟩
  · rintro ⟨g, hg, hxg⟩
    rcases mem_slots.1 hg with ⟨y, hy, n', hn', hne, p', hp', rfl⟩ | ⟨p', hp', rfl⟩ | ⟨y, hy, hny, rfl⟩
    · rw [List.mem_singleton] at hxg
      obtain rfl := keys_inj h hx hy (congrArg (fun t => t.1) hxg)
      obtain rfl : n = n' := congrArg (fun t => t.2.1) hxg
      obtain rfl : p = p' := congrArg (fun t => t.2.2) hxg
      rw [if_neg hne]
      exact hf.2 hp'
    · obtain ⟨y, hy, e⟩ := List.mem_map.1 hxg
      obtain rfl := keys_inj h hy hx (congrArg (fun t => t.1) e)
      obtain rfl : y.2.common = n := congrArg (fun t => t.2.1) e
      obtain rfl : p' = p := congrArg (fun t => t.2.2) e
      rw [if_pos rfl, hqn]
      simp [hp']
    · rw [List.mem_singleton] at hxg
      obtain rfl := keys_inj h hx hy (congrArg (fun t => t.1) hxg)
      obtain rfl : n = x.2.common := congrArg (fun t => t.2.1) hxg
      obtain rfl : p = s.norm := congrArg (fun t => t.2.2) hxg
      rw [if_pos rfl, hqn]
      simp [hf.2 hny]

variable [Field K] [LinearOrder K] [IsStrictOrderedRing K]

/-- Value of the first slot that has a parameter. -/
def pick (gs : List (List (Nat × κ × κ))) (vs : List K) (x : Nat × κ × κ) : K :=
  vs.getD (gs.findIdx fun g => decide (x ∈ g)) 0

theorem pick_eq {gs : List (List (Nat × κ × κ))} (hd : gs.Pairwise fun g g' => ∀ x ∈ g, x ∉ g') (vs : List K)
    {k : Nat} {g : List (Nat × κ × κ)} (hk : gs[k]? = some g) {x : Nat × κ × κ} (hx : x ∈ g) :
    pick gs vs x = vs.getD k 0 := by
  obtain ⟨hl, rfl⟩ := List.getElem?_eq_some_iff.1 hk
  have : gs.findIdx (fun g => decide (x ∈ g)) = k := by
    rw [List.findIdx_eq hl]
    refine ⟨by simpa using hx, fun j hj => ?_⟩
    simp only [decide_eq_false_iff_not]
    intro hxj
    exact List.pairwise_iff_getElem.1 hd j k (by omega) hl hj x hxj hx
  rw [pick, this]

theorem slots_nonempty {s : State κ K} (h : Tidy s) {g : List (Nat × κ × κ)} (hg : g ∈ slots s) : g ≠ [] := by
  rcases mem_slots.1 hg with ⟨_, _, _, _, _, _, _, rfl⟩ | ⟨_, _, rfl⟩ | ⟨_, _, _, rfl⟩
  · simp
  · simpa using h.nonempty
  · simp

/-- The values of a vector as those of a valuation. -/
theorem vals_pick {s : State κ K} (h : Tidy s) (vs : List K) (hl : vs.length = (slots s).length)
    {a : Nat} {c : Comp κ K} {cs : List (Nat × Comp κ K)} (hc : s.comps = (a, c) :: cs) :
    vals s (fun a n p => pick (slots s) vs (a, n, p)) (fun p => pick (slots s) vs (a, c.common, p)) = vs := by
  let R : List (Nat × κ × κ) → K := fun g => match g with
    | x :: _ => pick (slots s) vs x
    | [] => 0
  have h1 : vals s (fun a n p => pick (slots s) vs (a, n, p)) (fun p => pick (slots s) vs (a, c.common, p)) =
      (slots s).map R := by
    conv_rhs => rw [slots]
    rw [vals, List.map_append, List.map_append, List.append_assoc]
    congr 1
    · rw [List.map_flatMap]
      refine List.flatMap_congr fun x hx => ?_
      rw [List.map_flatMap]
      have := others_flat (h.sources x hx) fun n p => pick (slots s) vs (x.1, n, p)
      rw [← this]
      refine List.flatMap_congr fun n _ => ?_
      rw [List.map_map]
      rfl
    · congr 1
      · rw [List.map_map]
        refine List.map_congr_left fun p _ => ?_
        simp only [Function.comp, hc, List.map_cons, R]
      · rw [List.map_map]
        generalize s.comps = l
        induction l with
        | nil => rfl
        | cons x l ih =>
          rw [List.flatMap_cons, ih]
          by_cases hx : s.norm ∈ freeNames x.2 x.2.common
          · rw [List.filter_cons_of_pos (by simpa using hx), if_pos hx]; rfl
          · rw [List.filter_cons_of_neg (by simpa using hx), if_neg hx]; rfl
  rw [h1]
  refine List.ext_getElem (by rw [List.length_map, hl]) fun k hk hk' => ?_
  rw [List.getElem_map]
  rw [List.length_map] at hk
  have hne := slots_nonempty h (List.getElem_mem hk)
  obtain ⟨x, g, hg⟩ := List.exists_cons_of_ne_nil hne
  rw [hg]
  simp only [R]
  rw [pick_eq (slots_disjoint h) vs (List.getElem?_eq_getElem hk) (by rw [hg]; exact List.mem_cons_self ..),
    List.getD_eq_getElem _ _ hk']

theorem tidy_assigned {s : State κ K} (h : Tidy s) (w : Nat → κ → κ → K) :
    Tidy (assigned s w) ∧ shapeNames (assigned s w) = shapeNames s ∧ slots (assigned s w) = slots s := by
  have hsh : shapeNames (assigned s w) = shapeNames s := by
    unfold shapeNames assigned
    cases hc : s.comps with
    | nil => rfl
    | cons x cs =>
      simp only [List.map_cons]
      rw [(like_assign ..).common, (like_assign ..).names]
  refine ⟨⟨?_, ?_, ?_, ?_, ?_, ?_, ?_⟩, hsh, ?_⟩
  · rw [assigned]; simpa using h.nonempty
  · rw [assigned]
    simp only [List.map_map]
    exact h.keys
  · intro x hx
    obtain ⟨y, hy, rfl⟩ := List.mem_map.1 hx
    exact ((ok_of_tidy h hy).like (like_assign ..)).sources
  · intro x hx
    obtain ⟨y, hy, rfl⟩ := List.mem_map.1 hx
    exact ((ok_of_tidy h hy).like (like_assign ..)).params
  · intro x hx
    obtain ⟨y, hy, rfl⟩ := List.mem_map.1 hx
    exact ((ok_of_tidy h hy).like (like_assign ..)).common
  · intro x hx
    obtain ⟨y, hy, rfl⟩ := List.mem_map.1 hx
    exact ((ok_of_tidy h hy).like (like_assign ..)).norms
  · intro x hx
    rw [hsh]
    obtain ⟨y, hy, rfl⟩ := List.mem_map.1 hx
    exact ((ok_of_tidy h hy).like (like_assign ..)).shapes
  · unfold slots
    rw [hsh]
    congr 1
    · congr 1
      · rw [assigned]
        simp only [List.flatMap_map]
        refine List.flatMap_congr fun x _ => ?_
        rw [(like_assign ..).common, (like_assign ..).keys]
        exact List.flatMap_congr fun n _ => by rw [(like_assign ..).names]
      · refine List.map_congr_left fun p _ => ?_
        rw [assigned]
        simp only [List.map_map]
        exact List.map_congr_left fun x _ => rfl
    · rw [assigned]
      simp only [List.filter_map, List.map_map]
      have : ((fun x : Nat × Comp κ K => decide (s.norm ∈ freeNames x.2 x.2.common)) ∘
          fun x : Nat × Comp κ K => (x.1, assign s.norm (shapeNames s) (w x.1) x.2)) =
          fun x => decide (s.norm ∈ freeNames x.2 x.2.common) := by
        funext x
        simp only [Function.comp]
        rw [(like_assign ..).common, (like_assign ..).names]
      rw [this]
      exact List.map_congr_left fun x _ => rfl

theorem lookup_assigned {s : State κ K} (w : Nat → κ → κ → K) (x : Nat × κ × κ) {y : Nat × Comp κ K}
    (hy : s.comps.find? (fun y => y.1 = x.1) = some y) :
    lookup (assigned s w) x = (entry y.2 x.2.1 x.2.2).map fun q => newVal (if x.2.1 = y.2.common then
      decide (q.name ∈ shapeNames s) || (decide (q.name = s.norm) && q.free) else q.free) (w x.1 x.2.1 x.2.2) q := by
  have hk : y.1 = x.1 := by simpa using List.find?_some hy
  unfold lookup assigned
  simp only []
  rw [find_map, hy]
  simp only [Option.map_some]
  rw [entry_assign, hk]

/-- Setting the free parameters of a composite to values within all the bounds succeeds;
every parameter of the `k`-th slot gets the `k`-th value and keeps the rest; no other
parameter changes; the slots are the same as before, and reading gives the values back.
Values beyond the last slot are ignored. -/
theorem C59_set (dflt : Par κ K) (s : State κ K) (h : Tidy s) (vs r : List K) (hl : vs.length = (slots s).length)
    (hb : ∀ k g, (slots s)[k]? = some g → ∀ x ∈ g, ∀ q, lookup s x = some q → q.lo ≤ vs.getD k 0 ∧ vs.getD k 0 ≤ q.hi) :
    ∃ s', setFreeParamValues dflt s (vs ++ r) = .ok s' ∧ Tidy s' ∧ slots s' = slots s ∧
      (∀ k g, (slots s)[k]? = some g → ∀ x ∈ g,
        lookup s' x = (lookup s x).map fun q => { q with value := vs.getD k 0 }) ∧
      (∀ x, (∀ g ∈ slots s, x ∉ g) → lookup s' x = lookup s x) ∧
      ∃ ps, getFreeParams s' = .ok ps ∧ ps.map (·.value) = vs := by
  obtain ⟨⟨a, c⟩, cs, hc⟩ := List.exists_cons_of_ne_nil h.nonempty
  set w : Nat → κ → κ → K := fun a n p => pick (slots s) vs (a, n, p) with hw
  have hdis := slots_disjoint h
  have hset := set_vals dflt s h w (fun p => w a c.common p) r
    (fun x hx n hn => by
      have hg : (s.comps.map fun x => (x.1, x.2.common, n)) ∈ slots s := mem_slots.2 (Or.inr (Or.inl ⟨n, hn, rfl⟩))
      obtain ⟨k, hk⟩ := List.mem_iff_getElem?.1 hg
      simp only [hw]
      rw [pick_eq hdis vs hk (List.mem_map.2 ⟨x, hx, rfl⟩),
        pick_eq hdis vs hk (List.mem_map.2 ⟨(a, c), hc ▸ List.mem_cons_self .., rfl⟩)])
    (fun x hx y hy hne p hp hf => by
      have he := find_par (h.sources x hx) (h.params x hx) hy hp
      obtain ⟨g, hg, hxg⟩ := (driven_iff h hx he).1 (by rw [if_neg hne]; exact hf)
      obtain ⟨k, hk⟩ := List.mem_iff_getElem?.1 hg
      simp only [hw]
      rw [pick_eq hdis vs hk hxg]
      exact hb k g hk _ hxg p (by rw [lookup_of h hx]; exact he))
    (fun x hx y hy e p hp hq => by
      have he := find_par (h.sources x hx) (h.params x hx) hy hp
      obtain ⟨g, hg, hxg⟩ := (driven_iff h hx he).1 (by rw [if_pos e]; simpa using hq)
      obtain ⟨k, hk⟩ := List.mem_iff_getElem?.1 hg
      rw [e] at hxg he
      simp only [hw]
      rw [pick_eq hdis vs hk hxg]
      exact hb k g hk _ hxg p (by rw [lookup_of h hx]; exact he))
  rw [show vals s w (fun p => w a c.common p) = vs from vals_pick h vs hl hc] at hset
  obtain ⟨ht, _, hsl⟩ := tidy_assigned h w
  have hslots : slots (syncParams dflt (assigned s w)) = slots s := hsl
  have htidy : Tidy (syncParams dflt (assigned s w)) := ⟨ht.1, ht.2, ht.3, ht.4, ht.5, ht.6, ht.7⟩
  have hdrv : ∀ k g, (slots s)[k]? = some g → ∀ x ∈ g,
      lookup (syncParams dflt (assigned s w)) x = (lookup s x).map fun q => { q with value := vs.getD k 0 } := by
    intro k g hk x hx
    change lookup (assigned s w) x = _
    cases e : s.comps.find? (fun y => y.1 = x.1) with
    | none =>
      have : lookup s x = none := by unfold lookup; rw [e]
      rw [this]
      unfold lookup assigned
      simp only []
      rw [find_map, e]
      rfl
    | some y =>
      rw [lookup_assigned w x e]
      have hl : lookup s x = entry y.2 x.2.1 x.2.2 := by unfold lookup; rw [e]
      rw [hl]
      have hy := List.mem_of_find?_eq_some e
      have hy1 : y.1 = x.1 := by simpa using List.find?_some e
      refine Option.map_congr fun q hq => ?_
      have := (driven_iff h hy hq).2 ⟨g, List.mem_iff_getElem?.2 ⟨k, hk⟩, by rw [hy1]; exact hx⟩
      rw [this]
      simp only [newVal, if_true, hw]
      rw [pick_eq hdis vs hk hx]
  refine ⟨_, hset, htidy, hslots, hdrv, fun x hx => ?_, ?_⟩
  · change lookup (assigned s w) x = _
    cases e : s.comps.find? (fun y => y.1 = x.1) with
    | none =>
      have : lookup s x = none := by unfold lookup; rw [e]
      rw [this]
      unfold lookup assigned
      simp only []
      rw [find_map, e]
      rfl
    | some y =>
      rw [lookup_assigned w x e]
      have hl : lookup s x = entry y.2 x.2.1 x.2.2 := by unfold lookup; rw [e]
      rw [hl]
      have hy := List.mem_of_find?_eq_some e
      have hy1 : y.1 = x.1 := by simpa using List.find?_some e
      conv_rhs => rw [← Option.map_id' (x := entry y.2 x.2.1 x.2.2)]
      refine Option.map_congr fun q hq => ?_
      have := mt (driven_iff h hy hq).1 (by
        rintro ⟨g, hg, hxg⟩
        rw [hy1] at hxg
        exact hx g hg hxg)
      rw [Bool.not_eq_true] at this
      rw [this]
      rfl
  · obtain ⟨ps, h1, _, h2⟩ := C59_read _ htidy
    refine ⟨ps, h1, ?_⟩
    rw [hslots] at h2
    have hlen : ps.length = vs.length := by
      have := congrArg List.length h2
      rwa [List.length_map, List.length_map, ← hl] at this
    refine List.ext_getElem (by rw [List.length_map, hlen]) fun k hk hk' => ?_
    rw [List.getElem_map]
    rw [List.length_map] at hk
    have hk2 : k < (slots s).length := hl ▸ hk'
    have e := congrArg (fun l => l[k]?) h2
    simp only [List.getElem?_map, List.getElem?_eq_getElem hk, List.getElem?_eq_getElem hk2, Option.map_some] at e
    have hne := slots_nonempty h (List.getElem_mem hk2)
    obtain ⟨x, g, hg⟩ := List.exists_cons_of_ne_nil hne
    rw [hg, List.head?_cons, Option.bind_some, hdrv k (x :: g) (by rw [List.getElem?_eq_getElem hk2, hg]) x (List.mem_cons_self ..)] at e
    have e := Option.some.inj e
    obtain ⟨q, _, hq⟩ := Option.map_eq_some_iff.1 e.symm
    rw [← hq, List.getD_eq_getElem _ _ hk']

end Verif.Comp1
