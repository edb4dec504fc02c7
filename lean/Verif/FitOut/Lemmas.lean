import Mathlib.Algebra.BigOperators.Intervals
import Mathlib.Tactic.Linarith
import Mathlib.Tactic.Ring
import Mathlib.Data.List.Nodup
import Verif.FitOut.Model
import Verif.FitOut.Spec
/-
Lemmas about the results reported by gtlike.
-/
set_option linter.unusedSectionVars false
set_option linter.unusedSimpArgs false
set_option linter.unusedVariables false

namespace Verif.FitOut

open Verif

/-! ### errors of the parameters -/

/-- The number of free parameters of a list. -/
def nfree (l : List (List Char × Par)) : Nat := (l.filter (fun x => x.2.free)).length

theorem nfree_cons_true {x : List Char × Par} {l} (h : x.2.free = true) :
    nfree (x :: l) = nfree l + 1 := by
  unfold nfree; rw [List.filter_cons_of_pos (by simpa using h)]; rfl

theorem nfree_cons_false {x : List Char × Par} {l} (h : x.2.free = false) :
    nfree (x :: l) = nfree l := by
  unfold nfree; rw [List.filter_cons_of_neg (by simp [h])]

theorem params_cons (n : List Char) (ps : List Par) (m : Mod) :
    Spec.params ((n, ps) :: m) = ps.map (fun p => (n, p)) ++ Spec.params m := rfl

/-- Lines with errors. -/
def attach : List (List Char × Par) → List ℝ → List Line
  | [], _ => []
  | x :: l, es =>
    if x.2.free then ⟨x.1, x.2.name, x.2.value, es.head?⟩ :: attach l es.tail
    else ⟨x.1, x.2.name, x.2.value, none⟩ :: attach l es

theorem attach_append (l₁ l₂ : List (List Char × Par)) (es : List ℝ) :
    attach (l₁ ++ l₂) es = attach l₁ es ++ attach l₂ (es.drop (nfree l₁)) := by
  induction l₁ generalizing es with
  | nil => rfl
  | cons x l ih =>
    cases hx : x.2.free with
    | true =>
      rw [nfree_cons_true hx, List.cons_append, attach, attach, hx, if_pos rfl, if_pos rfl, ih,
        List.cons_append, List.drop_tail]
    | false =>
      rw [nfree_cons_false hx, List.cons_append, attach, attach, hx, if_neg (by simp),
        if_neg (by simp), ih, List.cons_append]

theorem attach_get (l : List (List Char × Par)) (es : List ℝ) (i : Nat) :
    (attach l es)[i]? = (l[i]?).map (fun x : List Char × Par => (⟨x.1, x.2.name, x.2.value,
      if x.2.free then es[nfree (l.take i)]? else none⟩ : Line)) := by
  induction l generalizing es i with
  | nil => rfl
  | cons x l ih =>
    cases hx : x.2.free with
    | true =>
      rw [attach, hx, if_pos rfl]
      cases i with
      | zero => simp [hx, nfree, List.head?_eq_getElem?]
      | succ i =>
        rw [List.getElem?_cons_succ, List.getElem?_cons_succ, ih, List.take_succ_cons,
          nfree_cons_true hx]
        congr 1
        funext y
        rw [List.getElem?_tail]
    | false =>
      rw [attach, hx, if_neg (by simp)]
      cases i with
      | zero => simp [hx]
      | succ i =>
        rw [List.getElem?_cons_succ, List.getElem?_cons_succ, ih, List.take_succ_cons,
          nfree_cons_false hx]

theorem printPars_eq (n : List Char) (ps : List Par) (es : List ℝ) :
    printPars n ps es = (attach (ps.map (fun p => (n, p))) es,
      es.drop (nfree (ps.map (fun p => (n, p))))) := by
  induction ps generalizing es with
  | nil => rfl
  | cons p ps ih =>
    cases hp : p.free with
    | true =>
      cases es with
      | nil =>
        rw [printPars, hp, if_pos rfl]
        simp only [ih, List.map_cons, attach, hp, if_true, List.head?_nil, List.tail_nil,
          List.drop_nil]
      | cons e es =>
        rw [printPars, hp, if_pos rfl]
        simp only [ih, List.map_cons, attach, hp, if_true, List.head?_cons, List.tail_cons]
        rw [nfree_cons_true (x := (n, p)) hp, List.drop_succ_cons]
    | false =>
      rw [printPars.eq_def]
      simp only [ih, List.map_cons, attach, hp]
      rw [nfree_cons_false (x := (n, p)) hp]
      simp

theorem printMod_eq (m : Mod) (es : List ℝ) : printMod m es = attach (Spec.params m) es := by
  induction m generalizing es with
  | nil => rfl
  | cons x m ih =>
    obtain ⟨n, ps⟩ := x
    rw [params_cons, attach_append, printMod]
    simp only [printPars_eq, ih]

/-- Parameters with errors. -/
def carry : List (List Char × Par) → List ℝ → List (List Char × Par)
  | [], _ => []
  | x :: l, es =>
    if x.2.free then (x.1, { x.2 with error := es.head?.getD x.2.error }) :: carry l es.tail
    else x :: carry l es

theorem carry_append (l₁ l₂ : List (List Char × Par)) (es : List ℝ) :
    carry (l₁ ++ l₂) es = carry l₁ es ++ carry l₂ (es.drop (nfree l₁)) := by
  induction l₁ generalizing es with
  | nil => rfl
  | cons x l ih =>
    cases hx : x.2.free with
    | true =>
      rw [nfree_cons_true hx, List.cons_append, carry, carry, hx, if_pos rfl, if_pos rfl, ih,
        List.cons_append, List.drop_tail]
    | false =>
      rw [nfree_cons_false hx, List.cons_append, carry, carry, hx, if_neg (by simp),
        if_neg (by simp), ih, List.cons_append]

theorem carry_nil (l : List (List Char × Par)) : carry l [] = l := by
  induction l with
  | nil => rfl
  | cons x l ih =>
    rw [carry]
    cases hx : x.2.free with
    | true => rw [if_pos rfl, List.tail_nil, ih]; rfl
    | false => rw [if_neg (by simp), ih]

theorem carry_get (l : List (List Char × Par)) (es : List ℝ) (i : Nat) :
    (carry l es)[i]? = (l[i]?).map (fun x : List Char × Par => (x.1, { x.2 with
      error := (if x.2.free then es[nfree (l.take i)]? else none).getD x.2.error })) := by
  induction l generalizing es i with
  | nil => rfl
  | cons x l ih =>
    cases hx : x.2.free with
    | true =>
      rw [carry, hx, if_pos rfl]
      cases i with
      | zero => simp [hx, nfree, List.head?_eq_getElem?]
      | succ i =>
        rw [List.getElem?_cons_succ, List.getElem?_cons_succ, ih, List.take_succ_cons,
          nfree_cons_true hx]
        congr 1
        funext y
        rw [List.getElem?_tail]
    | false =>
      rw [carry, hx, if_neg (by simp)]
      cases i with
      | zero =>
        obtain ⟨a, b⟩ := x
        obtain ⟨n, v, f, e⟩ := b
        have : f = false := hx
        subst this
        rfl
      | succ i =>
        rw [List.getElem?_cons_succ, List.getElem?_cons_succ, ih, List.take_succ_cons,
          nfree_cons_false hx]

theorem setParErrs_eq (n : List Char) (ps : List Par) (es : List ℝ) :
    (setParErrs ps es).1.map (fun p => (n, p)) = carry (ps.map (fun p => (n, p))) es ∧
      (setParErrs ps es).2 = es.drop (nfree (ps.map (fun p => (n, p)))) := by
  induction ps generalizing es with
  | nil => exact ⟨rfl, rfl⟩
  | cons p ps ih =>
    cases hp : p.free with
    | true =>
      cases es with
      | nil =>
        rw [setParErrs, hp, if_pos rfl]
        exact ⟨(carry_nil _).symm, by rw [List.drop_nil]⟩
      | cons e es =>
        rw [setParErrs, hp, if_pos rfl]
        constructor
        · simp only [List.map_cons, carry, hp, if_true, List.head?_cons, List.tail_cons]
          rw [(ih es).1]; rfl
        · simp only [List.map_cons]
          rw [(ih es).2, nfree_cons_true (x := (n, p)) hp, List.drop_succ_cons]
    | false =>
      rw [setParErrs.eq_def]
      simp only [hp]
      constructor
      · simp only [List.map_cons, carry, hp]
        simp [(ih es).1]
      · simp only [List.map_cons]
        simp only [Bool.false_eq_true, if_false]
        rw [(ih es).2, nfree_cons_false (x := (n, p)) hp]

theorem setModErrs_eq (m : Mod) (es : List ℝ) :
    Spec.params (setModErrs m es) = carry (Spec.params m) es := by
  induction m generalizing es with
  | nil => rfl
  | cons x m ih =>
    obtain ⟨n, ps⟩ := x
    rw [params_cons, carry_append, setModErrs, params_cons, (setParErrs_eq n ps es).1, ih, (setParErrs_eq n ps es).2]

theorem allPars_eq (m : Mod) : allPars m = (Spec.params m).map Prod.snd := by
  induction m with
  | nil => rfl
  | cons x m ih =>
    obtain ⟨n, ps⟩ := x
    rw [params_cons, List.map_append, ← ih, List.map_map]
    show ps ++ allPars m = _
    congr 1
    exact (List.map_id ps).symm

theorem nfree_all (m : Mod) : ((allPars m).filter (·.free)).length = (Spec.frees m).length := by
  rw [allPars_eq, List.filter_map, List.length_map]; rfl

/-- The rank depends on the names and flags only. -/
theorem carry_take (l : List (List Char × Par)) (es : List ℝ) (i : Nat) :
    nfree ((carry l es).take i) = nfree (l.take i) := by
  induction l generalizing es i with
  | nil => rfl
  | cons x l ih =>
    cases i with
    | zero => rfl
    | succ i =>
      cases hx : x.2.free with
      | true =>
        rw [carry, hx, if_pos rfl, List.take_succ_cons, List.take_succ_cons,
          nfree_cons_true (by exact hx), nfree_cons_true hx, ih]
      | false =>
        rw [carry, hx, if_neg (by simp), List.take_succ_cons, List.take_succ_cons,
          nfree_cons_false hx, nfree_cons_false hx, ih]

theorem attach_carry (l : List (List Char × Par)) (es : List ℝ) :
    attach (carry l es) es = attach l es := by
  have : ∀ (l : List (List Char × Par)) (es fs : List ℝ), attach (carry l fs) es = attach l es := by
    intro l
    induction l with
    | nil => intros; rfl
    | cons x l ih =>
      intro es fs
      cases hx : x.2.free with
      | true =>
        rw [carry, hx, if_pos rfl, attach, attach, hx]
        simp only [if_true]
        rw [ih]
      | false =>
        rw [carry, hx, if_neg (by simp), attach, attach, hx, if_neg (by simp), if_neg (by simp)]
        rw [ih]
  exact this l es es

/-! ### keys -/

theorem key_inj {s p s' p' : List Char} (hp : ':' ∉ p) (hp' : ':' ∉ p')
    (h : key s p = key s' p') : s = s' ∧ p = p' := by
  unfold key at h
  have key1 : ∀ (a b c d : List Char), ':' ∉ b → ':' ∉ d →
      a ++ [':', ':'] ++ b = c ++ [':', ':'] ++ d → b.length ≤ d.length → b.length = d.length := by
    intro a b c d hb hd h hl
    by_contra hne
    have hlt : b.length < d.length := by omega
    have h2 := congrArg List.reverse h
    simp only [List.reverse_append, List.append_assoc] at h2
    have h3 : (b.reverse ++ ([':', ':'].reverse ++ a.reverse))[b.length]? =
        (d.reverse ++ ([':', ':'].reverse ++ c.reverse))[b.length]? := by rw [h2]
    rw [List.getElem?_append_right (l₁ := b.reverse) (by simp),
      List.getElem?_append_left (l₁ := d.reverse) (by rw [List.length_reverse]; exact hlt)] at h3
    have h4 : (d.reverse)[b.length]? = some ':' := by rw [← h3]; simp
    exact hd (List.mem_reverse.1 (List.mem_of_getElem? h4))
  have hlen : p.length = p'.length := by
    rcases Nat.le_total p.length p'.length with hl | hl
    · exact key1 s p s' p' hp hp' h hl
    · exact (key1 s' p' s p hp' hp h.symm hl).symm
  have h1 := List.append_inj' h hlen
  refine ⟨List.append_cancel_right h1.1, h1.2⟩

/-! ### the index of a parameter -/

/-- Storing keys with successive indices. -/
def storeAll : List (List Char) → List (List Char × Nat) × Nat → List (List Char × Nat) × Nat
  | [], a => a
  | k :: ks, a => storeAll ks (store a.1 k a.2, a.2 + 1)

theorem storeAll_append (k₁ k₂ : List (List Char)) (a) :
    storeAll (k₁ ++ k₂) a = storeAll k₂ (storeAll k₁ a) := by
  induction k₁ generalizing a with
  | nil => rfl
  | cons k ks ih => exact ih _

theorem indexPars_eq (s : List Char) (ns : List (List Char)) (a) :
    indexPars s ns a = storeAll (ns.map (key s)) a := by
  induction ns generalizing a with
  | nil => rfl
  | cons n ns ih => exact ih _

/-- The keys of the free parameters of a model. -/
def keys (m : Mod) : List (List Char) := m.flatMap (fun x => (freeNames x.2).map (key x.1))

theorem indexMod_eq (m : Mod) (a) : indexMod m a = storeAll (keys m) a := by
  induction m generalizing a with
  | nil => rfl
  | cons x m ih =>
    obtain ⟨n, ps⟩ := x
    show indexMod m _ = storeAll (_ ++ keys m) a
    rw [storeAll_append, ih, indexPars_eq]

theorem storeAll_nodup (ks : List (List Char)) (mp : List (List Char × Nat)) (n : Nat)
    (hk : ks.Nodup) (hd : ∀ k ∈ ks, k ∉ mp.map Prod.fst) :
    storeAll ks (mp, n) = (mp ++ ks.zipIdx n, n + ks.length) := by
  induction ks generalizing mp n with
  | nil => simp [storeAll]
  | cons k ks ih =>
    rw [storeAll]
    simp only
    rw [store, if_neg (hd k List.mem_cons_self), ih _ _ (List.nodup_cons.1 hk).2]
    · rw [List.zipIdx_cons, List.append_assoc, List.singleton_append, List.length_cons]
      congr 1; omega
    · intro q hq
      rw [List.map_append, List.mem_append]
      rintro (h | h)
      · exact hd q (List.mem_cons_of_mem _ hq) h
      · simp at h
        exact (List.nodup_cons.1 hk).1 (h ▸ hq)

theorem fetch_zipIdx (ks : List (List Char)) (n i : Nat) (hk : ks.Nodup) (h : i < ks.length) :
    fetch (ks.zipIdx n) ks[i] = n + i := by
  induction ks generalizing n i with
  | nil => simp at h
  | cons k ks ih =>
    cases i with
    | zero => simp [fetch, List.zipIdx_cons]
    | succ i =>
      have hne : k ≠ ks[i]'(by simpa using h) := by
        intro he
        exact (List.nodup_cons.1 hk).1 (he ▸ List.getElem_mem _)
      have := ih (n + 1) i (List.nodup_cons.1 hk).2 (by simpa using h)
      rw [List.getElem_cons_succ]
      unfold fetch at this ⊢
      rw [List.zipIdx_cons, List.find?_cons_of_neg (by simpa using hne), this]
      omega

theorem keys_eq (m : Mod) : keys m = (Spec.frees m).map (fun x => key x.1 x.2.name) := by
  induction m with
  | nil => rfl
  | cons x m ih =>
    obtain ⟨n, ps⟩ := x
    unfold Spec.frees at ih ⊢
    rw [params_cons, List.filter_append, List.map_append, ← ih]
    show (freeNames ps).map (key n) ++ keys m = _
    congr 1
    unfold freeNames
    rw [List.map_map, List.filter_map, List.map_map]
    rfl

theorem frees_append (m₁ m₂ : Mod) : Spec.frees (m₁ ++ m₂) = Spec.frees m₁ ++ Spec.frees m₂ := by
  unfold Spec.frees Spec.params
  rw [List.flatMap_append, List.filter_append]

theorem frees_cons (n : List Char) (ps : List Par) (m : Mod) :
    Spec.frees ((n, ps) :: m) = (ps.filter (·.free)).map (fun p => (n, p)) ++ Spec.frees m := by
  unfold Spec.frees
  rw [params_cons, List.filter_append, List.filter_map]; rfl

theorem mem_frees {m : Mod} {y} (h : y ∈ Spec.frees m) : ∃ x ∈ m, x.1 = y.1 ∧ y.2 ∈ x.2 := by
  unfold Spec.frees Spec.params at h
  obtain ⟨x, hx, hy⟩ := List.mem_flatMap.1 (List.mem_filter.1 h).1
  obtain ⟨p, hp, rfl⟩ := List.mem_map.1 hy
  exact ⟨x, hx, rfl, hp⟩

theorem keys_nodup {m : Mod} (h : Spec.Named m) : (keys m).Nodup := by
  induction m with
  | nil => exact List.nodup_nil
  | cons x m ih =>
    obtain ⟨n, ps⟩ := x
    obtain ⟨h1, h2⟩ := h
    rw [List.map_cons, List.nodup_cons] at h1
    rw [keys_eq, frees_cons, List.map_append, List.nodup_append]
    refine ⟨?_, ?_, ?_⟩
    · rw [List.map_map]
      have h3 := (h2 (n, ps) List.mem_cons_self).1
      have h4 := (List.Sublist.map (fun p : Par => p.name)
        (List.filter_sublist (p := fun p : Par => p.free) (l := ps))).nodup h3
      have e : ((fun x : List Char × Par => key x.1 x.2.name) ∘ fun p : Par => (n, p)) =
          key n ∘ fun p : Par => p.name := rfl
      rw [e, ← List.map_map]
      refine List.Nodup.map_on ?_ h4
      intro a ha b hb hab
      obtain ⟨p, hp, rfl⟩ := List.mem_map.1 ha
      obtain ⟨q, hq, rfl⟩ := List.mem_map.1 hb
      have hc := (h2 (n, ps) List.mem_cons_self).2
      exact (key_inj (hc p (List.mem_of_mem_filter hp)) (hc q (List.mem_of_mem_filter hq)) hab).2
    · rw [← keys_eq]
      exact ih ⟨h1.2, fun x hx => h2 x (List.mem_cons_of_mem _ hx)⟩
    · intro a ha b hb hab
      obtain ⟨x, hx, rfl⟩ := List.mem_map.1 ha
      obtain ⟨p, hp, rfl⟩ := List.mem_map.1 hx
      obtain ⟨y, hy, rfl⟩ := List.mem_map.1 hb
      obtain ⟨z, hz, hz1, hz2⟩ := mem_frees hy
      have := (key_inj ((h2 (n, ps) List.mem_cons_self).2 p (List.mem_of_mem_filter hp))
        ((h2 z (List.mem_cons_of_mem _ hz)).2 y.2 hz2) hab).1
      apply h1.1
      rw [List.mem_map]
      exact ⟨z, hz, by rw [hz1, ← this]⟩

/-! ### the sums -/

theorem dot_eq (a b : List ℝ) (n : Nat) (ha : a.length = n) (hb : b.length = n) :
    dot a b = ∑ i ∈ Finset.range n, a[i]?.getD 0 * b[i]?.getD 0 := by
  induction n generalizing a b with
  | zero =>
    rw [List.length_eq_zero_iff.1 ha]; rfl
  | succ n ih =>
    cases a with
    | nil => simp at ha
    | cons x a =>
      cases b with
      | nil => simp at hb
      | cons y b =>
        rw [dot, ih a b (by simpa using ha) (by simpa using hb), Finset.sum_range_succ']
        simp [add_comm]

theorem each_ok {α β : Type} (f : α → Res β) (g : α → β) (l : List α)
    (h : ∀ a ∈ l, f a = .ok (g a)) : each f l = .ok (l.map g) := by
  induction l with
  | nil => rfl
  | cons a l ih =>
    rw [each, h a List.mem_cons_self, Res.bind_ok, ih (fun b hb => h b (List.mem_cons_of_mem _ hb))]
    rfl

theorem cell_ok {n : Nat} {c : List (List ℝ)} (h : Spec.Square n c) {i j : Nat} (hi : i < n)
    (hj : j < n) : cell c i j = .ok (Spec.entry c i j) := by
  have h1 : i < c.length := by rw [h.1]; exact hi
  unfold cell Spec.entry
  rw [List.getElem?_eq_getElem h1]
  have h2 := h.2 _ (List.getElem_mem h1)
  simp only [Option.getD_some]
  rw [List.getElem?_eq_getElem (by rw [h2]; exact hj)]
  rfl

theorem sum_block (f : Nat → ℝ) (a b c : Nat) (h1 : ∀ i, i < a → f i = 0)
    (h2 : ∀ i, a + b ≤ i → i < a + b + c → f i = 0) :
    ∑ i ∈ Finset.range (a + b + c), f i = ∑ i ∈ Finset.range b, f (a + i) := by
  rw [Finset.sum_range_add, Finset.sum_range_add,
    Finset.sum_eq_zero (s := Finset.range a) (fun i hi => h1 i (Finset.mem_range.1 hi)),
    Finset.sum_eq_zero (s := Finset.range c)
      (fun i hi => h2 _ (by omega) (by have := Finset.mem_range.1 hi; omega)), zero_add, add_zero]

end Verif.FitOut
