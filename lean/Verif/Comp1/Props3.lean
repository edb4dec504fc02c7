import Mathlib.Tactic.Ring
import Mathlib.Algebra.BigOperators.Group.List.Basic
import Verif.Comp1.Props2
/-
C59: the gradient of a composite likelihood, its construction, and what goes wrong.
-/
set_option linter.unusedSectionVars false
set_option linter.unusedSimpArgs false
set_option linter.unusedVariables false
namespace Verif.Comp1
open SrcModel (Par)
open Verif.Comp1.Spec

variable {κ K : Type} [DecidableEq κ]

/-! ### Gradient -/

section Gradient
variable [AddCommMonoid K]

/-- The additions to the vector of shape derivatives. -/
def addAt (npars : Nat) : List K → Nat → List K → List K
  | spec, _, [] => spec
  | spec, i, d :: ds => addAt npars (spec.set (i % npars) (spec.getD (i % npars) 0 + d)) (i + 1) ds

/-- Derivatives by kind. -/
def othersOf (L : List ((Bool × κ) × K)) : List K := (L.filter fun t => !t.1.1).map Prod.snd
def normsOf (norm : κ) (L : List ((Bool × κ) × K)) : List K :=
  (L.filter fun t => t.1.1 && decide (t.1.2 = norm)).map Prod.snd
def shapesOf (norm : κ) (L : List ((Bool × κ) × K)) : List K :=
  (L.filter fun t => t.1.1 && decide (t.1.2 ≠ norm)).map Prod.snd

theorem split_eq (norm : κ) (npars : Nat) (L : List ((Bool × κ) × K)) (a : Acc K) (hl : a.spec.length = npars)
    (hz : npars = 0 → shapesOf norm L = []) :
    splitLoop norm npars (L.map Prod.fst) (L.map Prod.snd) a =
      .ok ⟨a.derivs ++ othersOf L, addAt npars a.spec a.ipar (shapesOf norm L), a.norms ++ normsOf norm L,
        a.ipar + (shapesOf norm L).length⟩ := by
  induction L generalizing a with
  | nil => simp [splitLoop, othersOf, shapesOf, normsOf, addAt]
  | cons t L ih =>
    obtain ⟨⟨b, n⟩, d⟩ := t
    rw [List.map_cons, List.map_cons, splitLoop]
    cases b with
    | false =>
      rw [if_pos rfl, ih ⟨a.derivs ++ [d], a.spec, a.norms, a.ipar⟩ hl (fun h => by simpa [shapesOf] using hz h)]
      simp [othersOf, shapesOf, normsOf]
    | true =>
      rw [if_neg (by simp)]
      by_cases hn : n = norm
      · rw [if_pos hn, ih ⟨a.derivs, a.spec, a.norms ++ [d], a.ipar⟩ hl (fun h => by simpa [shapesOf, hn] using hz h)]
        simp [othersOf, shapesOf, normsOf, hn]
      · rw [if_neg hn]
        have hnp : npars ≠ 0 := fun h => by simpa [shapesOf, hn] using hz h
        have hlt : a.ipar % npars < a.spec.length := by rw [hl]; exact Nat.mod_lt _ (Nat.pos_of_ne_zero hnp)
        rw [if_neg hnp, List.getElem?_eq_getElem hlt]
        simp only []
        rw [ih _ (by simpa using hl) (fun h => absurd h hnp)]
        have : shapesOf norm (((true, n), d) :: L) = d :: shapesOf norm L := by simp [shapesOf, hn]
        rw [this, addAt, List.getD_eq_getElem _ _ hlt]
        simp [othersOf, normsOf, hn]
        omega

theorem addAt_block (m j : Nat) (b pre suf : List K) (hb : b.length = suf.length) (hm : pre.length + suf.length = m) :
    addAt m (pre ++ suf) (m * j + pre.length) b = pre ++ List.zipWith (· + ·) suf b := by
  induction b generalizing pre suf with
  | nil =>
    have : suf = [] := List.length_eq_zero_iff.1 hb.symm
    subst this
    rfl
  | cons d b ih =>
    obtain ⟨x, suf, rfl⟩ := List.exists_cons_of_length_pos (l := suf) (by rw [← hb]; simp)
    have hlt : pre.length < m := by rw [List.length_cons] at hm; omega
    have hmod : (m * j + pre.length) % m = pre.length := by rw [Nat.mul_add_mod, Nat.mod_eq_of_lt hlt]
    have e1 : (pre ++ x :: suf).getD pre.length 0 = x := by simp
    have e2 : (pre ++ x :: suf).set pre.length (x + d) = (pre ++ [x + d]) ++ suf := by simp
    rw [addAt, hmod, e1, e2, show m * j + pre.length + 1 = m * j + (pre ++ [x + d]).length by simp [Nat.add_assoc],
      ih (pre ++ [x + d]) suf (by simpa using hb) (by simpa [Nat.add_assoc, Nat.add_comm 1] using hm)]
    simp

theorem addAt_append (m : Nat) (spec : List K) (i : Nat) (a b : List K) :
    addAt m spec i (a ++ b) = addAt m (addAt m spec i a) (i + a.length) b := by
  induction a generalizing spec i with
  | nil => rfl
  | cons d a ih => rw [List.cons_append, addAt, addAt, ih]; congr 1; simp; omega

theorem addAt_blocks {α : Type} (shape : List κ) (cs : List α) (g : α → κ → K) (f : κ → K) (j : Nat) :
    addAt shape.length (shape.map f) (shape.length * j) (cs.flatMap fun x => shape.map (g x)) =
      shape.map fun p => f p + (cs.map fun x => g x p).sum := by
  induction cs generalizing f j with
  | nil => simp [addAt]
  | cons x cs ih =>
    rw [List.flatMap_cons, addAt_append]
    have h := addAt_block shape.length j (shape.map (g x)) [] (shape.map f) (by simp) (by simp)
    simp only [List.nil_append, List.length_nil, Nat.add_zero] at h
    have hz : List.zipWith (· + ·) (shape.map f) (shape.map (g x)) = shape.map fun p => f p + g x p := by
      generalize shape = l
      induction l with
      | nil => rfl
      | cons p l ih => simp
    rw [h, hz, List.length_map, show shape.length * j + shape.length = shape.length * (j + 1) by ring, ih]
    simp [add_assoc]

theorem flatMap_single {β : Type} {m : List (κ × Spectrum κ K)} (h : (m.map Prod.fst).Nodup)
    {y : κ × Spectrum κ K} (hy : y ∈ m) (f : κ × Spectrum κ K → List β) :
    (m.flatMap fun z => if z.1 = y.1 then f z else []) = f y := by
  induction m with
  | nil => cases hy
  | cons z m ih =>
    rw [List.map_cons, List.nodup_cons] at h
    rw [List.flatMap_cons]
    rcases List.mem_cons.1 hy with rfl | hy
    · rw [if_pos rfl]
      have : (m.flatMap fun z => if z.1 = y.1 then f z else []) = [] := by
        rw [List.flatMap_eq_nil_iff]
        intro z hz
        rw [if_neg]
        exact fun e => h.1 (e ▸ List.mem_map_of_mem (f := Prod.fst) hz)
      rw [this, List.append_nil]
    · rw [ih h.2 hy, if_neg, List.nil_append]
      exact fun e => h.1 (e ▸ List.mem_map_of_mem (f := Prod.fst) hy)

/-- Labels and derivatives of a component together. -/
def pairs (der : Nat → κ → κ → K) (x : Nat × Comp κ K) : List ((Bool × κ) × K) :=
  x.2.srcs.flatMap fun y => (y.2.pars.filter (·.free)).map fun p => ((decide (x.2.common = y.1), p.name), der x.1 y.1 p.name)

theorem pairs_fst (der : Nat → κ → κ → K) (x : Nat × Comp κ K) : (pairs der x).map Prod.fst = labels x.2 := by
  rw [pairs, labels, List.map_flatMap]
  exact List.flatMap_congr fun y _ => by rw [List.map_map]; rfl

theorem pairs_others (der : Nat → κ → κ → K) (x : Nat × Comp κ K) (h : (x.2.srcs.map Prod.fst).Nodup) :
    othersOf (pairs der x) = ((x.2.srcs.map Prod.fst).filter (· ≠ x.2.common)).flatMap fun n =>
      (freeNames x.2 n).map fun p => der x.1 n p := by
  rw [others_flat h, othersOf, pairs, List.filter_flatMap, List.map_flatMap]
  refine List.flatMap_congr fun y _ => ?_
  by_cases e : y.1 = x.2.common
  · simp [e, List.filter_map, Function.comp_def]
  · simp [e, Ne.symm e, List.filter_map, Function.comp_def]

theorem pairs_common (der : Nat → κ → κ → K) {norm : κ} {shape : List κ} (x : Nat × Comp κ K) (h : Ok norm shape x.2)
    (P : κ → Bool) : (((pairs der x).filter fun t => t.1.1 && P t.1.2).map Prod.snd) =
      ((freeNames x.2 x.2.common).filter P).map fun p => der x.1 x.2.common p := by
  obtain ⟨y, hy, e, _, hfn⟩ := common_of h
  rw [hfn, pairs, List.filter_flatMap, List.map_flatMap]
  have : (fun z : κ × Spectrum κ K => (((z.2.pars.filter (·.free)).map fun p =>
        ((decide (x.2.common = z.1), p.name), der x.1 z.1 p.name)).filter fun t => t.1.1 && P t.1.2).map Prod.snd) =
      fun z => if z.1 = y.1 then ((z.2.pars.filter (·.free)).filter fun p => P p.name).map fun p => der x.1 z.1 p.name
        else [] := by
    funext z
    by_cases hz : z.1 = y.1
    · simp [hz, e, List.filter_map, Function.comp_def]
    · have : ¬ x.2.common = z.1 := fun h => hz (h.symm.trans e.symm)
      simp [hz, this, List.filter_map, Function.comp_def]
  rw [this, flatMap_single h.sources hy, List.filter_map, List.map_map, e]
  rfl

/-- The gradient of a composite has one entry for each free parameter, in the same order:
the sum of the derivatives with respect to all the parameters that the slot drives.  It is
assumed that each component gives its derivatives in the order of its free parameters and
that all common sources have the same free shape parameters, in the same order (see
`C59_gradient_violates`). -/
theorem C59_gradient_partial (s : State κ K) (h : Tidy s) (der : Nat → κ → κ → K) (fd : Nat → Comp κ K → List K)
    (hfd : ∀ x ∈ s.comps, fd x.1 x.2 = x.2.srcs.flatMap fun y =>
      (y.2.pars.filter (·.free)).map fun p => der x.1 y.1 p.name)
    (hm : ∀ x ∈ s.comps, (freeNames x.2 x.2.common).filter (· ≠ s.norm) = shapeNames s) :
    getFreeDerivs s fd = .ok ((slots s).map fun g => (g.map fun x => der x.1 x.2.1 x.2.2).sum) := by
  obtain ⟨⟨a, c⟩, cs, hc⟩ := List.exists_cons_of_ne_nil h.nonempty
  have hx : (a, c) ∈ s.comps := hc ▸ List.mem_cons_self ..
  obtain ⟨y, hy, e, hsrc, hfn⟩ := common_of (ok_of_tidy h hx)
  have hnp : ((y.2.pars.filter (·.free)).filter (fun p => p.name ≠ s.norm)).length = (shapeNames s).length := by
    rw [← hm _ hx, hfn, List.filter_map, List.length_map]; rfl
  set L := s.comps.flatMap (pairs der) with hL
  have hL1 : (s.comps.flatMap fun x => labels x.2) = L.map Prod.fst := by
    rw [hL, List.map_flatMap]; exact List.flatMap_congr fun x _ => (pairs_fst der x).symm
  have hL2 : (s.comps.flatMap fun x => fd x.1 x.2) = L.map Prod.snd := by
    rw [hL, List.map_flatMap]
    refine List.flatMap_congr fun x hx => ?_
    rw [hfd x hx, pairs, List.map_flatMap]
    exact List.flatMap_congr fun y _ => by rw [List.map_map]; rfl
  have hsh : shapesOf s.norm L = s.comps.flatMap fun x => (shapeNames s).map fun p => der x.1 x.2.common p := by
    rw [shapesOf, hL, List.filter_flatMap, List.map_flatMap]
    refine List.flatMap_congr fun x hx => ?_
    rw [pairs_common der x (ok_of_tidy h hx) fun n => decide (n ≠ s.norm), hm x hx]
  have hno : normsOf s.norm L = (s.comps.filter fun x => s.norm ∈ freeNames x.2 x.2.common).map
      fun x => der x.1 x.2.common s.norm := by
    rw [normsOf, hL, List.filter_flatMap, List.map_flatMap]
    have : (s.comps.filter fun x => s.norm ∈ freeNames x.2 x.2.common).map (fun x => der x.1 x.2.common s.norm) =
        s.comps.flatMap fun x => if s.norm ∈ freeNames x.2 x.2.common then [der x.1 x.2.common s.norm] else [] := by
      generalize s.comps = l
      induction l with
      | nil => rfl
      | cons x l ih =>
        rw [List.flatMap_cons, ← ih]
        by_cases hx : s.norm ∈ freeNames x.2 x.2.common
        · rw [List.filter_cons_of_pos (by simpa using hx), if_pos hx]; rfl
        · rw [List.filter_cons_of_neg (by simpa using hx), if_neg hx]; rfl
    rw [this]
    refine List.flatMap_congr fun x hx => ?_
    rw [pairs_common der x (ok_of_tidy h hx) fun n => decide (n = s.norm)]
    have hnd := freeNames_nodup (h.params x hx) x.2.common
    by_cases hn : s.norm ∈ freeNames x.2 x.2.common
    · rw [if_pos hn, show (fun n => decide (n = s.norm)) = (· == s.norm) by funext n; simp [beq_iff_eq, Bool.beq_eq_decide_eq],
        List.filter_beq, List.count_eq_one_of_mem hnd hn]
      rfl
    · rw [if_neg hn, List.filter_eq_nil_iff.2, List.map_nil]
      intro n hn2 e
      exact hn ((of_decide_eq_true e) ▸ hn2)
  have hot : othersOf L = s.comps.flatMap fun x => ((x.2.srcs.map Prod.fst).filter (· ≠ x.2.common)).flatMap fun n =>
      (freeNames x.2 n).map fun p => der x.1 n p := by
    rw [othersOf, hL, List.filter_flatMap, List.map_flatMap]
    exact List.flatMap_congr fun x hx => pairs_others der x (h.sources x hx)
  rw [getFreeDerivs, hc]
  simp only []
  rw [hsrc, Res.bind_ok, ← hc, hL1, hL2, hnp, split_eq s.norm _ L _ (by simp)
    (fun h0 => by
      rw [hsh, List.flatMap_eq_nil_iff]
      intro x _
      rw [List.length_eq_zero_iff.1 h0, List.map_nil]), Res.bind_ok]
  simp only [List.nil_append]
  have hrep : List.replicate (shapeNames s).length (0 : K) = (shapeNames s).map fun _ => 0 := by
    rw [List.map_const']
  have hblocks := addAt_blocks (shapeNames s) s.comps (fun x p => der x.1 x.2.common p) (fun _ => 0) 0
  rw [Nat.mul_zero, ← hrep, ← hsh] at hblocks
  rw [hblocks, hot, hno]
  congr 1
  rw [slots, List.map_append, List.map_append]
  congr 1
  · congr 1
    · rw [List.map_flatMap]
      refine List.flatMap_congr fun x _ => ?_
      rw [List.map_flatMap]
      refine List.flatMap_congr fun n _ => ?_
      rw [List.map_map]
      exact List.map_congr_left fun p _ => by simp
    · rw [List.map_map]
      refine List.map_congr_left fun p _ => ?_
      simp [Function.comp_def]
  · rw [List.map_map]
    exact List.map_congr_left fun x _ => by simp

end Gradient

/-! ### Construction -/

/-- A sequence of calls of `addComponent`. -/
def adds (normOf : κ → κ) (s : State κ K) : List (Nat × List (κ × Spectrum κ K) × κ) → Res (State κ K)
  | [] => .ok s
  | (a, srcs, n) :: l => do
    let s ← addComponent normOf s a srcs n
    adds normOf s l

/-- After any sequence of successful additions to an empty composite, each component has its
common source, all of them of the same type, whose normalisation is the one that is kept
apart; the components are in the order of their addresses. -/
theorem C59_add (normOf : κ → κ) (s : State κ K) (hs : s.comps = []) (l : List (Nat × List (κ × Spectrum κ K) × κ))
    (s' : State κ K) (h : adds normOf s l = .ok s') :
    (s'.comps.map Prod.fst).Pairwise (· < ·) ∧
      (∀ x ∈ s'.comps, ∃ y ∈ x.2.srcs, y.1 = x.2.common ∧ y.2.kind = s'.kind ∧ s'.norm = normOf y.2.kind) ∧
      ∀ a, a ∈ s'.comps.map Prod.fst ↔ a ∈ l.map Prod.fst := by
  have key : ∀ (l : List (Nat × List (κ × Spectrum κ K) × κ)) (s s' : State κ K), adds normOf s l = .ok s' →
      StdMap.Sorted s.comps →
      (∀ x ∈ s.comps, ∃ y ∈ x.2.srcs, y.1 = x.2.common ∧ y.2.kind = s.kind ∧ s.norm = normOf y.2.kind) →
      StdMap.Sorted s'.comps ∧
      (∀ x ∈ s'.comps, ∃ y ∈ x.2.srcs, y.1 = x.2.common ∧ y.2.kind = s'.kind ∧ s'.norm = normOf y.2.kind) ∧
      ∀ a, a ∈ s'.comps.map Prod.fst ↔ a ∈ s.comps.map Prod.fst ∨ a ∈ l.map Prod.fst := by
    intro l
    induction l with
    | nil => intro s s' h h1 h2; cases h; exact ⟨h1, h2, fun a => by simp⟩
    | cons t l ih =>
      intro s s' h h1 h2
      obtain ⟨a, srcs, n⟩ := t
      rw [adds, Res.bind_eq_ok] at h
      obtain ⟨s1, e1, e2⟩ := h
      have step : ∃ x, srcs.find? (fun x => x.1 = n) = some x ∧ s1.comps = StdMap.put s.comps a ⟨srcs, n⟩ ∧
          x.2.kind = s1.kind ∧ (s.comps = [] ∧ s1.norm = normOf x.2.kind ∨ s.comps ≠ [] ∧ s1.norm = s.norm ∧ s1.kind = s.kind) := by
        unfold addComponent at e1
        split at e1
        · cases e1
        · rename_i x hx
          split at e1
          · rename_i hc
            cases e1
            exact ⟨x, hx, rfl, rfl, Or.inl ⟨hc, rfl⟩⟩
          · rename_i hc
            split at e1
            · cases e1
            · rename_i hk
              cases e1
              exact ⟨x, hx, rfl, (not_not.1 hk).symm, Or.inr ⟨hc, rfl, rfl⟩⟩
      obtain ⟨x, hx, hcomps, hkind, hor⟩ := step
      have hxm := List.mem_of_find?_eq_some hx
      have hxn : x.1 = n := by simpa using List.find?_some hx
      have hsrt : StdMap.Sorted s1.comps := hcomps ▸ StdMap.sorted_put h1 a _
      have hinv : ∀ z ∈ s1.comps, ∃ y ∈ z.2.srcs, y.1 = z.2.common ∧ y.2.kind = s1.kind ∧ s1.norm = normOf y.2.kind := by
        intro z hz
        have hf := StdMap.find_of_mem hsrt (k := z.1) (a := z.2) hz
        rw [hcomps, StdMap.find_put h1] at hf
        by_cases hza : z.1 = a
        · rw [if_pos hza] at hf
          have hf := Option.some.inj hf
          rw [← hf]
          refine ⟨x, hxm, hxn, hkind, ?_⟩
          rcases hor with ⟨_, hn⟩ | ⟨hne, hn, hk⟩
          · exact hn
          · obtain ⟨z0, hz0⟩ := List.exists_mem_of_ne_nil _ hne
            obtain ⟨y, _, _, hy1, hy2⟩ := h2 z0 hz0
            rw [hn, hy2, hy1, hkind, hk]
        · rw [if_neg hza] at hf
          have hmem := StdMap.find_some_mem hf
          obtain ⟨y, hy, e, hy1, hy2⟩ := h2 _ hmem
          rcases hor with ⟨hnil, _⟩ | ⟨_, hn, hk⟩
          · rw [hnil] at hmem; cases hmem
          · exact ⟨y, hy, e, hy1.trans hk.symm, hn.trans hy2⟩
      obtain ⟨r1, r2, r3⟩ := ih s1 s' e2 hsrt hinv
      refine ⟨r1, r2, fun b => ?_⟩
      rw [r3 b, List.map_cons, List.mem_cons]
      have : b ∈ s1.comps.map Prod.fst ↔ b = a ∨ b ∈ s.comps.map Prod.fst := by
        rw [hcomps]; exact StdMap.keys_put
      rw [this]
      simp only []
      tauto
  obtain ⟨h1, h2, h3⟩ := key l s s' h (by rw [hs]; exact StdMap.sorted_nil) (by rw [hs]; simp)
  exact ⟨h1, h2, fun a => by rw [h3, hs]; simp⟩

/-! ### What goes wrong -/

variable [Field K] [LinearOrder K] [IsStrictOrderedRing K]

theorem syncPars_eq (norm : κ) (ps : List (Par κ K)) (acc : List (Par κ K) × Par κ K) :
    (syncPars norm ps acc).1 = acc.1 ++ ps.filter fun p => p.name ≠ norm := by
  unfold syncPars
  induction ps generalizing acc with
  | nil => simp
  | cons p ps ih =>
    rw [List.foldl_cons, ih]
    by_cases h : p.name = norm <;> simp [h]

/-- The parameters of all components. -/
def allPars (s : State κ K) : List (Par κ K) := s.comps.flatMap fun x => x.2.srcs.flatMap fun y => y.2.pars

theorem sync_length (dflt : Par κ K) (s : State κ K) :
    (syncParams dflt s).param.length = ((allPars s).filter fun p => p.name ≠ s.norm).length + 1 := by
  have : ∀ (cs : List (Nat × Comp κ K)) (acc : List (Par κ K) × Par κ K),
      (cs.foldl (fun acc x => syncPars s.norm (x.2.srcs.flatMap fun y => y.2.pars) acc) acc).1 =
        acc.1 ++ (cs.flatMap fun x => x.2.srcs.flatMap fun y => y.2.pars).filter fun p => p.name ≠ s.norm := by
    intro cs
    induction cs with
    | nil => intro acc; simp
    | cons x cs ih =>
      intro acc
      rw [List.foldl_cons, ih, syncPars_eq, List.flatMap_cons, List.filter_append, List.append_assoc]
  rw [syncParams]
  simp only [List.length_append, List.length_singleton]
  rw [this, allPars, List.nil_append]

/-- `parameters()` of a composite of two or more components is not the list of its
parameters: all normalisations but one are lost whenever the parameters are set. -/
theorem C59_params_violates (dflt : Par κ K) (s : State κ K) (h : Tidy s) (h2 : 2 ≤ s.comps.length) :
    (syncParams dflt s).param.length < (allPars s).length := by
  rw [sync_length]
  have hsplit : ∀ l : List (Par κ K), l.length = (l.filter fun p => p.name ≠ s.norm).length +
      (l.filter fun p => p.name = s.norm).length := by
    intro l
    induction l with
    | nil => rfl
    | cons p l ih => by_cases hp : p.name = s.norm <;> simp [hp, ih] <;> omega
  rw [hsplit (allPars s)]
  have hone : ∀ x ∈ s.comps, 1 ≤ ((x.2.srcs.flatMap fun y => y.2.pars).filter fun p => p.name = s.norm).length := by
    intro x hx
    have o := ok_of_tidy h hx
    obtain ⟨y, hy, e, _, _⟩ := common_of o
    obtain ⟨p, hp, hn, _, _, _⟩ := normPar_of o hy e
    exact List.length_pos_iff.2 (List.ne_nil_of_mem (List.mem_filter.2 ⟨List.mem_flatMap.2 ⟨y, hy, hp⟩, by simpa using hn⟩))
  have hge : ∀ cs : List (Nat × Comp κ K), (∀ x ∈ cs, 1 ≤ ((x.2.srcs.flatMap fun y => y.2.pars).filter fun p => p.name = s.norm).length) →
      cs.length ≤ ((cs.flatMap fun x => x.2.srcs.flatMap fun y => y.2.pars).filter fun p => p.name = s.norm).length := by
    intro cs
    induction cs with
    | nil => intro _; simp
    | cons x cs ih =>
      intro hcs
      rw [List.flatMap_cons, List.filter_append, List.length_append, List.length_cons]
      have := hcs x (List.mem_cons_self ..)
      have := ih fun z hz => hcs z (List.mem_cons_of_mem _ hz)
      omega
  have := hge s.comps hone
  rw [allPars]
  omega

/-- A parameter with wide bounds. -/
def mkPar (name : Nat) (v : ℚ) (free : Bool) : Par Nat ℚ := ⟨name, v, 1, -10, 10, free⟩

/-- A component with one source: normalisation 0, shape parameters 1 and 2. -/
def one (norm shape cut : Bool) : Comp Nat ℚ :=
  ⟨[(7, ⟨3, [mkPar 0 1 norm, mkPar 1 2 shape, mkPar 2 3 cut]⟩)], 7⟩

/-- A composite of two such components. -/
def two (c d : Comp Nat ℚ) : State Nat ℚ := ⟨[(0, c), (1, d)], 0, 3, []⟩

theorem two_tidy (a b c a' b' c' : Bool) : Tidy (two (one a b c) (one a' b' c')) where
  nonempty := by simp [two]
  keys := by simp [two]
  sources x hx := by
    simp only [two, List.mem_cons, List.not_mem_nil, or_false] at hx
    rcases hx with rfl | rfl <;> simp [one]
  params x hx y hy := by
    simp only [two, List.mem_cons, List.not_mem_nil, or_false] at hx
    rcases hx with rfl | rfl <;>
    · simp only [one, List.mem_cons, List.not_mem_nil, or_false] at hy
      subst hy
      simp [mkPar]
  common x hx := by
    simp only [two, List.mem_cons, List.not_mem_nil, or_false] at hx
    rcases hx with rfl | rfl <;> simp [one]
  norms x hx := by
    simp only [two, List.mem_cons, List.not_mem_nil, or_false] at hx
    rcases hx with rfl | rfl <;> simp [one, entry, two, mkPar]
  shapes x hx p hp := by
    have hp' : p = 1 ∨ p = 2 := by
      cases a <;> cases b <;> cases c <;> simp [shapeNames, two, freeNames, one, mkPar] at hp <;> tauto
    simp only [two, List.mem_cons, List.not_mem_nil, or_false] at hx
    rcases hx with rfl | rfl <;> rcases hp' with rfl | rfl <;> simp [one, entry, mkPar]

/-- Derivatives of a component in the order of its free parameters. -/
def derivs (der : Nat → Nat → Nat → ℚ) (a : Nat) (c : Comp Nat ℚ) : List ℚ :=
  c.srcs.flatMap fun y => (y.2.pars.filter (·.free)).map fun p => der a y.1 p.name

/-- If the common sources do not have the same free parameters the gradient is wrong: the
derivative with respect to a parameter that is free in the second component only is added to
that of another parameter (here parameter 2 to parameter 1).  If the first component has no
free shape parameter and the second has one, the behaviour is undefined (remainder by zero),
although the parameters can be read and counted. -/
theorem C59_gradient_violates :
    (∃ s : State Nat ℚ, Tidy s ∧ ∀ der, getFreeDerivs s (derivs der) = .ok [der 0 7 1 + der 1 7 1 + der 1 7 2] ∧
      ((slots s).map fun g => (g.map fun x => der x.1 x.2.1 x.2.2).sum) = [der 0 7 1 + der 1 7 1]) ∧
    ∃ s : State Nat ℚ, Tidy s ∧ getNumFreeParams s = .ok 1 ∧ ∀ der, getFreeDerivs s (derivs der) = .ub := by
  refine ⟨⟨two (one false true false) (one false true true), two_tidy .., fun der => ⟨?_, ?_⟩⟩,
    ⟨two (one true false false) (one false true false), two_tidy .., ?_, fun der => ?_⟩⟩
  · simp [getFreeDerivs, two, one, mkPar, source, labels, derivs, splitLoop]
  · simp [slots, two, one, mkPar, freeNames, shapeNames]
  · simp [getNumFreeParams, countLoop, two, one, mkPar, source, normPar]
  · simp [getFreeDerivs, two, one, mkPar, source, labels, derivs, splitLoop]

/-- Which component comes first is decided by the addresses of the objects: the same two
components at exchanged addresses have different numbers of free parameters. -/
theorem C59_order_violates : ∃ c d : Comp Nat ℚ, Tidy (two c d) ∧ Tidy (two d c) ∧
    getNumFreeParams (two c d) = .ok 3 ∧ getNumFreeParams (two d c) = .ok 2 := by
  refine ⟨one true true false, one true false false, two_tidy .., two_tidy .., ?_, ?_⟩ <;>
    simp [getNumFreeParams, countLoop, two, one, mkPar, source, normPar]

/-- A component whose common source is fixed, with another source that is free. -/
def other : State Nat ℚ := ⟨[(0, ⟨[(7, ⟨3, [mkPar 0 1 false]⟩), (8, ⟨3, [mkPar 0 1 true]⟩)], 7⟩)], 0, 3, []⟩

/-- A vector of values that is too short is not noticed: the values are read beyond its
end, for the other sources as for the common ones. -/
theorem C59_short_violates (dflt : Par Nat ℚ) :
    (∃ s : State Nat ℚ, Tidy s ∧ (slots s).length = 3 ∧ setFreeParamValues dflt s [1, 2] = .ub) ∧
    ∃ s : State Nat ℚ, Tidy s ∧ (slots s).length = 1 ∧ setFreeParamValues dflt s [] = .ub := by
  refine ⟨⟨two (one true true false) (one true true false), two_tidy .., ?_, ?_⟩, other, ?_, ?_, ?_⟩
  · simp [slots, two, one, mkPar, freeNames, shapeNames]
  · simp [setFreeParamValues, setOthersAll, setOthers, two, one, mkPar, source, setShape, setNamed, setValue,
      Par.setValue, setSpec, setCommon, applyShape, setNorm, normPar]
    norm_num
  · refine ⟨by simp [other], by simp [other], fun x hx => ?_, fun x hx y hy => ?_, fun x hx => ?_, fun x hx => ?_,
      fun x hx p hp => ?_⟩
    all_goals
      simp only [other, List.mem_cons, List.not_mem_nil, or_false] at hx
      subst hx
    · simp
    · simp only [List.mem_cons, List.not_mem_nil, or_false] at hy
      rcases hy with rfl | rfl <;> simp [mkPar]
    · simp
    · simp [entry, other, mkPar]
    · simp [shapeNames, other, freeNames, mkPar] at hp
  · simp [slots, other, mkPar, freeNames, shapeNames]
  · simp [setFreeParamValues, setOthersAll, setOthers, setFree, other, mkPar]

/-- A shape parameter that is free in the first component and fixed in the second is changed
in the second all the same. -/
theorem C59_fixed_violates (dflt : Par Nat ℚ) : ∃ s s' : State Nat ℚ, Tidy s ∧
    lookup s (1, 7, 1) = some (mkPar 1 2 false) ∧ setFreeParamValues dflt s [5] = .ok s' ∧
    lookup s' (1, 7, 1) = some (mkPar 1 5 false) := by
  have ht := two_tidy false true false false false false
  have hs : slots (two (one false true false) (one false false false)) = [[(0, 7, 1), (1, 7, 1)]] := by
    simp [slots, two, one, mkPar, freeNames, shapeNames]
  obtain ⟨s', h1, _, _, h2, _⟩ := C59_set dflt _ ht [5] [] (by rw [hs]; rfl) (by
    intro k g hk x hx q hq
    rw [hs] at hk
    cases k with
    | succ k => simp at hk
    | zero =>
      cases hk
      simp only [List.mem_cons, List.not_mem_nil, or_false] at hx
      rcases hx with rfl | rfl <;> simp [lookup, two, one, entry, mkPar] at hq <;> subst hq <;> norm_num)
  refine ⟨_, s', ht, ?_, h1, ?_⟩
  · simp [lookup, two, one, entry, mkPar]
  · rw [h2 0 _ (by rw [hs]; rfl) (1, 7, 1) (by simp)]
    simp [lookup, two, one, entry, mkPar]

/-- The hypotheses of the theorems hold for two components with the same free parameters. -/
example : Tidy (two (one true true false) (one true true false)) ∧
    slots (two (one true true false) (one true true false)) = [[(0, 7, 1), (1, 7, 1)], [(0, 7, 0)], [(1, 7, 0)]] ∧
    ∀ x ∈ (two (one true true false) (one true true false)).comps, (freeNames x.2 x.2.common).filter (· ≠ 0) =
      shapeNames (two (one true true false) (one true true false)) := by
  refine ⟨two_tidy .., by simp [slots, two, one, mkPar, freeNames, shapeNames], fun x hx => ?_⟩
  simp only [two, List.mem_cons, List.not_mem_nil, or_false] at hx
  rcases hx with rfl | rfl <;> simp [freeNames, shapeNames, two, one, mkPar]

/-- Two additions that succeed. -/
example : ∃ s : State Nat ℚ, adds (fun _ => 0) ⟨[], 5, 5, []⟩
    [(1, (one true true true).srcs, 7), (0, (one false true true).srcs, 7)] = .ok s ∧ s.comps.length = 2 := by
  refine ⟨⟨[(0, one false true true), (1, one true true true)], 0, 3, []⟩, ?_, rfl⟩
  simp [adds, addComponent, one, StdMap.put]

end Verif.Comp1
