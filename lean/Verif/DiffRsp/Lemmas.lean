import Verif.DiffRsp.Model
import Verif.DiffRsp.Spec
import Verif.Energy.Lemmas
import Mathlib.Data.List.Basic
import Mathlib.Data.Nat.Bitwise
/-
Lemmas on names, on reading and on writing.
-/
set_option linter.unusedSimpArgs false
set_option linter.unusedVariables false
namespace Verif.DiffRsp
open Verif

/-! ### Names -/

theorem strip_base (base : Name) (h : ':' ∉ base) : strip base = base := by
  induction base using strip.induct with
  | case1 => rfl
  | case2 a => rfl
  | case3 a b r hab => exact absurd (hab.1 ▸ List.mem_cons_self) h
  | case4 a b r hab ih =>
    rw [strip, if_neg hab, ih (fun hm => h (List.mem_cons_of_mem _ hm))]

theorem strip_qual (base q : Name) (h : ':' ∉ base) : strip (base ++ ':' :: ':' :: q) = base := by
  induction base with
  | nil => simp [strip]
  | cons a base ih =>
    have ha : a ≠ ':' := fun e => h (e ▸ List.mem_cons_self)
    have hb : ':' ∉ base := fun hm => h (List.mem_cons_of_mem _ hm)
    cases base with
    | nil =>
      show strip (a :: ':' :: ':' :: q) = [a]
      rw [strip, if_neg (fun e => ha e.1), strip, if_pos ⟨rfl, rfl⟩]
    | cons b base =>
      show strip (a :: b :: (base ++ ':' :: ':' :: q)) = a :: b :: base
      rw [strip, if_neg (fun e => ha e.1)]
      congr 1
      exact ih hb

theorem comp_eq {irf base : Name} (h : Spec.Base irf base) (src : Name) :
    compName irf src = Spec.component base src := by
  obtain ⟨hb, rfl | ⟨q, rfl⟩⟩ := h
  · simp [compName, Spec.component, strip_base _ hb]
  · simp [compName, Spec.component, strip_qual _ _ hb]

theorem comp_ne (base src : Name) : Spec.component base src ≠ noName := by
  intro h
  have : '_' ∈ Spec.component base src := by
    refine List.mem_map.2 ⟨'_', by simp, by decide⟩
  rw [h] at this
  revert this
  decide

theorem compName_ne (irf src : Name) : compName irf src ≠ noName := by
  intro h
  have : '_' ∈ compName irf src := by
    refine List.mem_map.2 ⟨'_', by simp, by decide⟩
  rw [h] at this
  revert this
  decide

theorem mem_add {ns : List Name} {n m : Name} : m ∈ addColumn ns n ↔ m ∈ ns ∨ m = n := by
  unfold addColumn
  split
  · constructor
    · exact Or.inl
    · rintro (h | rfl) <;> assumption
  · simp

theorem add_nodup {ns : List Name} (h : ns.Nodup) (n : Name) : (addColumn ns n).Nodup := by
  unfold addColumn
  split
  · exact h
  · rename_i hn
    refine List.nodup_append.2 ⟨h, by simp, ?_⟩
    intro a ha b hb
    rw [List.mem_singleton.1 hb]
    rintro rfl
    exact hn ha

theorem add_prefix (ns : List Name) (n : Name) : ns <+: addColumn ns n := by
  unfold addColumn
  split
  · exact List.prefix_refl _
  · exact List.prefix_append _ _

theorem foldl_add_prefix (l ns : List Name) : ns <+: l.foldl addColumn ns := by
  induction l generalizing ns with
  | nil => exact List.prefix_refl _
  | cons a l ih => exact (add_prefix ns a).trans (ih _)

theorem foldl_add_nodup (l : List Name) {ns : List Name} (h : ns.Nodup) : (l.foldl addColumn ns).Nodup := by
  induction l generalizing ns with
  | nil => exact h
  | cons a l ih => exact ih (add_nodup h a)

theorem mem_foldl_add (l : List Name) {ns : List Name} {m : Name} :
    m ∈ l.foldl addColumn ns ↔ m ∈ ns ∨ m ∈ l := by
  induction l generalizing ns with
  | nil => simp
  | cons a l ih => rw [List.foldl_cons, ih, mem_add, List.mem_cons, or_assoc]

/-- Names that are there already change nothing. -/
theorem foldl_add_sub (l : List Name) {ns : List Name} (h : ∀ n ∈ l, n ∈ ns) : l.foldl addColumn ns = ns := by
  induction l with
  | nil => rfl
  | cons a l ih =>
    rw [List.foldl_cons, addColumn, if_pos (h a List.mem_cons_self)]
    exact ih fun n hn => h n (List.mem_cons_of_mem _ hn)

/-- New and distinct names are added in their order. -/
theorem foldl_add_new (l : List Name) {ns : List Name} (hl : l.Nodup) (h : ∀ n ∈ l, n ∉ ns) :
    l.foldl addColumn ns = ns ++ l := by
  induction l generalizing ns with
  | nil => simp
  | cons a l ih =>
    rw [List.nodup_cons] at hl
    rw [List.foldl_cons, addColumn, if_neg (h a List.mem_cons_self), ih hl.2, List.append_assoc]
    · rfl
    · intro n hn hm
      rcases List.mem_append.1 hm with hm | hm
      · exact h n (List.mem_cons_of_mem _ hn) hm
      · exact hl.1 (List.mem_singleton.1 hm ▸ hn)

theorem existing_eq (ns keys : List Name) :
    existing ns keys = (keys.filter fun n => decide (n ≠ noName)).foldl addColumn ns := by
  unfold existing
  induction keys generalizing ns with
  | nil => rfl
  | cons a keys ih =>
    rw [List.foldl_cons, ih]
    by_cases ha : a = noName
    · rw [List.filter_cons_of_neg (by simpa using ha), if_neg (by simpa using ha)]
    · rw [List.filter_cons_of_pos (by simpa using ha), if_pos ha, List.foldl_cons]

theorem key_eq {ns : List Name} (hn : ns.Nodup) {n : Name} {i : Nat} (h : ns[i]? = some n) :
    key ns n = .ok i := by
  have hi := (List.getElem?_eq_some_iff.1 h).1
  have he := (List.getElem?_eq_some_iff.1 h).2
  have hm : n ∈ ns := List.mem_iff_getElem.2 ⟨i, hi, he⟩
  rw [key, if_pos hm, ← he, hn.idxOf_getElem]

theorem key_get {ns : List Name} {n : Name} (h : n ∈ ns) :
    key ns n = .ok (ns.idxOf n) ∧ ns[ns.idxOf n]? = some n := by
  refine ⟨by rw [key, if_pos h], ?_⟩
  have hl := List.idxOf_lt_length_of_mem h
  rw [List.getElem?_eq_getElem hl, List.getElem_idxOf]

theorem get_prefix {ns ms : List Name} (h : ns <+: ms) {i : Nat} {n : Name} (hi : ns[i]? = some n) :
    ms[i]? = some n := by
  obtain ⟨t, rfl⟩ := h
  have hl := (List.getElem?_eq_some_iff.1 hi).1
  rw [List.getElem?_append_left hl, hi]

theorem get_inj {ns : List Name} (hn : ns.Nodup) {i k : Nat} {n : Name} (hi : ns[i]? = some n)
    (hk : ns[k]? = some n) : i = k := by
  have h1 := key_eq hn hi
  rw [key_eq hn hk] at h1
  cases h1
  rfl

/-! ### Reading -/

theorem readEvent_ok {ns : List Name} {f : EvFile} (hn : ns.Nodup)
    (hc : ∀ i < ns.length, (f.cols i).isSome) (j : Nat) (todo : List Name) (hs : ∀ n ∈ todo, n ∈ ns) (m : Resp) :
    ∃ m', readEvent ns f j todo m = .ok m' ∧
      (∀ n ∈ todo, ∀ i c, ns[i]? = some n → f.cols i = some c → m' n = some [c j]) ∧
      ∀ n, n ∉ todo → m' n = m n := by
  induction todo generalizing m with
  | nil => exact ⟨m, rfl, fun n hn => by simp at hn, fun _ _ => rfl⟩
  | cons a todo ih =>
    obtain ⟨hk, hg⟩ := key_get (hs a List.mem_cons_self)
    have hl := List.idxOf_lt_length_of_mem (hs a List.mem_cons_self)
    obtain ⟨c, hcc⟩ := Option.isSome_iff_exists.1 (hc _ hl)
    obtain ⟨m', h1, h2, h3⟩ := ih (fun n h => hs n (List.mem_cons_of_mem _ h)) (setResp m a (c j))
    refine ⟨m', ?_, ?_, ?_⟩
    · simp only [readEvent, hk, Res.bind_ok, hcc]
      exact h1
    · intro n hna i c' hi hci
      by_cases hnt : n ∈ todo
      · exact h2 n hnt i c' hi hci
      · rcases List.mem_cons.1 hna with rfl | h
        · rw [h3 _ hnt]
          have : i = ns.idxOf n := get_inj hn hi hg
          rw [this, hcc] at hci
          cases hci
          simp [setResp]
        · exact absurd h hnt
    · intro n hn'
      rw [List.mem_cons, not_or] at hn'
      rw [h3 n hn'.2, setResp, if_neg hn'.1]

/-- The names read from a tidy file. -/
theorem getNames_tidy {f : EvFile} {real : List Name} {k : Nat} (h : f.keys = real ++ List.replicate k noName)
    (hr : real.Nodup) (hz : noName ∉ real) :
    getNames f = real ++ List.replicate (min k 1) noName := by
  have e1 : real.foldl addColumn [] = real := by
    simpa using foldl_add_new real (ns := []) hr (by simp)
  rw [getNames, h, List.foldl_append, e1]
  cases k with
  | zero => simp
  | succ k =>
    rw [List.replicate_succ, List.foldl_cons, addColumn, if_neg hz, foldl_add_sub]
    · rw [show min (k + 1) 1 = 1 by omega]
      simp
    · intro n hn
      rw [(List.mem_replicate.1 hn).2]
      simp

theorem names_nodup {real : List Name} (hr : real.Nodup) (hz : noName ∉ real) (k : Nat) :
    (real ++ List.replicate (min k 1) noName).Nodup := by
  rcases Nat.eq_zero_or_pos k with rfl | hk
  · simpa using hr
  · rw [show min k 1 = 1 by omega]
    refine List.nodup_append.2 ⟨hr, by simp, ?_⟩
    intro a ha b hb
    have : b = noName := by simpa using hb
    rw [this]
    rintro rfl
    exact hz ha

/-- The responses that the events of a tidy file get. -/
theorem readEvents_tidy {f : EvFile} {real : List Name} {k : Nat}
    (h : f.keys = real ++ List.replicate k noName) (hr : real.Nodup) (hz : noName ∉ real)
    (hc : ∀ i < f.keys.length, (f.cols i).isSome) :
    ∃ g : Nat → Resp, readEvents f = .ok ((List.range f.nrow).map g) ∧
      (∀ j, ∀ n ∈ real, ∀ i c, real[i]? = some n → f.cols i = some c → g j n = some [c j]) ∧
      ∀ j n, n ∉ real → n ≠ noName → g j n = none := by
  have hN := getNames_tidy h hr hz
  have hnd := names_nodup hr hz k
  have hlen : (real ++ List.replicate (min k 1) noName).length ≤ f.keys.length := by
    rw [h]
    simp
  have key1 : ∀ j, ∃ m', readEvent (getNames f) f j (getNames f) (fun _ => none) = .ok m' ∧
      (∀ n ∈ getNames f, ∀ i c, (getNames f)[i]? = some n → f.cols i = some c → m' n = some [c j]) ∧
      ∀ n, n ∉ getNames f → m' n = none := by
    intro j
    exact readEvent_ok (by rw [hN]; exact hnd) (fun i hi => hc i (by rw [hN] at hi; omega)) j _
      (fun n hn => hn) _
  choose g hg1 hg2 hg3 using key1
  refine ⟨g, mapM_ok _ g _ fun j _ => hg1 j, ?_, ?_⟩
  · intro j n hn i c hi hci
    refine hg2 j n (by rw [hN]; exact List.mem_append_left _ hn) i c ?_ hci
    rw [hN]
    exact get_prefix (List.prefix_append _ _) hi
  · intro j n hn hnn
    refine hg3 j n ?_
    rw [hN]
    intro hm
    rcases List.mem_append.1 hm with hm | hm
    · exact hn hm
    · exact hnn (List.mem_replicate.1 hm).2

/-! ### Computing -/

theorem pushed (irf : Name) (v : Src → ℝ) (l : List Src) (hd : (l.map fun x => compName irf x.name).Nodup)
    (m : Resp) (hm : ∀ x ∈ l, m (compName irf x.name) = none) :
    (∀ x ∈ l, l.foldl (fun m s => push m (compName irf s.name) (v s)) m (compName irf x.name) = some [v x]) ∧
    ∀ n, n ∉ l.map (fun x => compName irf x.name) →
      l.foldl (fun m s => push m (compName irf s.name) (v s)) m n = m n := by
  induction l generalizing m with
  | nil => exact ⟨fun x hx => by simp at hx, fun _ _ => rfl⟩
  | cons a l ih =>
    rw [List.map_cons, List.nodup_cons] at hd
    have hm' : ∀ x ∈ l, push m (compName irf a.name) (v a) (compName irf x.name) = none := by
      intro x hx
      rw [push, if_neg, hm x (List.mem_cons_of_mem _ hx)]
      intro e
      exact hd.1 (List.mem_map.2 ⟨x, hx, e⟩)
    obtain ⟨h1, h2⟩ := ih hd.2 _ hm'
    refine ⟨?_, ?_⟩
    · intro x hx
      rw [List.foldl_cons]
      rcases List.mem_cons.1 hx with rfl | hx
      · rw [h2 _ hd.1, push, if_pos rfl, hm x List.mem_cons_self]
        rfl
      · exact h1 x hx
    · intro n hn
      rw [List.map_cons, List.mem_cons, not_or] at hn
      rw [List.foldl_cons, h2 n hn.2, push, if_neg hn.1]

/-- After computing: an event has a value for each source, and the old ones stay. -/
theorem compute_ok {irf : Name} {srcs : List Src} (hd : (srcs.map fun x => compName irf x.name).Nodup)
    (dummy : Bool) (id : Nat) (m : Resp) {x : Src} (hx : x ∈ srcs) :
    compute irf srcs dummy id m (compName irf x.name) =
      match m (compName irf x.name) with
      | some l => some l
      | none => some [if dummy then 0 else x.resp id] := by
  have hsub : (newSrcs irf m srcs).Sublist srcs := List.filter_sublist
  have hd' : ((newSrcs irf m srcs).map fun x => compName irf x.name).Nodup := hd.sublist (hsub.map _)
  obtain ⟨h1, h2⟩ := pushed irf (fun s => if dummy then 0 else s.resp id) (newSrcs irf m srcs) hd' m (by
    intro y hy
    have := (List.mem_filter.1 hy).2
    simpa using this)
  unfold compute
  cases hm : m (compName irf x.name) with
  | none =>
    exact h1 x (List.mem_filter.2 ⟨hx, by simp [hm]⟩)
  | some l =>
    rw [h2, hm]
    intro hn
    obtain ⟨y, hy, he⟩ := List.mem_map.1 hn
    have := (List.mem_filter.1 hy).2
    rw [he, hm] at this
    simp at this

theorem dummy_iff {c : Cfg} {t : Option Nat} (ht : target c = .ok t) (e : Ev) :
    isDummy c t e.cls = true ↔ ¬ Spec.Wanted c e := by
  unfold Spec.Wanted
  unfold target at ht
  unfold isDummy
  cases ho : c.old with
  | true =>
    rw [ho, if_pos rfl] at ht
    cases ht
    simp
  | false =>
    rw [ho] at ht
    simp only [Bool.false_eq_true, if_false] at ht ⊢
    cases hc : c.cls with
    | none =>
      rw [hc] at ht
      cases ht
      simp
    | some b =>
      rw [hc] at ht
      simp only at ht
      by_cases h1 : 32 < b
      · rw [if_pos h1] at ht
        cases ht
      · rw [if_neg h1] at ht
        by_cases h2 : b = 32
        · rw [if_pos h2] at ht
          cases ht
        · rw [if_neg h2] at ht
          cases ht
          have e1 : e.cls &&& 1 <<< b = (e.cls.testBit b).toNat * 2 ^ b := by
            rw [Nat.one_shiftLeft, Nat.and_two_pow]
          simp only [e1]
          cases e.cls.testBit b <;> simp

theorem dummy_value {c : Cfg} {t : Option Nat} (ht : target c = .ok t) (e : Ev) (x : Src) :
    (if isDummy c t e.cls then 0 else x.resp e.id) = Spec.value c x e := by
  unfold Spec.value
  by_cases h : Spec.Wanted c e
  · rw [if_pos h, if_neg (fun hd => (dummy_iff ht e).1 hd h)]
  · rw [if_neg h, if_pos ((dummy_iff ht e).2 h)]

/-! ### Writing -/

theorem prepare_ok (irf : Name) (srcs : List Src) (ns : List Name) (hn : ns.Nodup) (cols : Cols) :
    ∃ ns' cols', prepare irf srcs ns cols = .ok (ns', cols') ∧
      ns' = (srcs.map fun x => compName irf x.name).foldl addColumn ns ∧
      (∀ i c, cols i = some c → cols' i = some c) ∧
      (∀ x ∈ srcs, ∀ i, ns'[i]? = some (compName irf x.name) → (cols' i).isSome) ∧
      ∀ i, cols i = none → (cols' i).isSome → ∃ x ∈ srcs, ns'[i]? = some (compName irf x.name) := by
  induction srcs generalizing ns cols with
  | nil => exact ⟨ns, cols, rfl, rfl, fun _ _ h => h, fun x hx => by simp at hx, fun i h h' => by simp [h] at h'⟩
  | cons a srcs ih =>
    have hma : compName irf a.name ∈ addColumn ns (compName irf a.name) := mem_add.2 (Or.inr rfl)
    obtain ⟨hk, hg⟩ := key_get hma
    obtain ⟨ns', cols', h1, h2, h3, h4, h5⟩ := ih (addColumn ns (compName irf a.name)) (add_nodup hn _)
      (append cols ((addColumn ns (compName irf a.name)).idxOf (compName irf a.name)))
    have hpre : addColumn ns (compName irf a.name) <+: ns' := by
      rw [h2]
      exact foldl_add_prefix _ _
    have hnd : ns'.Nodup := by
      rw [h2]
      exact foldl_add_nodup _ (add_nodup hn _)
    have hg' := get_prefix hpre hg
    refine ⟨ns', cols', ?_, ?_, ?_, ?_, ?_⟩
    · simp only [prepare, hk, Res.bind_ok]
      exact h1
    · rw [h2]
      rfl
    · intro i c hi
      apply h3
      rw [append]
      split
      · rename_i he
        rw [← he, hi]
        rfl
      · exact hi
    · intro x hx i hi
      rcases List.mem_cons.1 hx with rfl | hx
      · have : i = (addColumn ns (compName irf x.name)).idxOf (compName irf x.name) := get_inj hnd hi hg'
        rw [this, h3 _ _ (by rw [append, if_pos rfl])]
        rfl
      · exact h4 x hx i hi
    · intro i hi hs
      by_cases he : i = (addColumn ns (compName irf a.name)).idxOf (compName irf a.name)
      · refine ⟨a, List.mem_cons_self, ?_⟩
        rw [he]
        exact hg'
      · obtain ⟨x, hx, hxi⟩ := h5 i (by rw [append, if_neg he]; exact hi) hs
        exact ⟨x, List.mem_cons_of_mem _ hx, hxi⟩

/-- The columns after a row is written: `v` gives the value of each component. -/
theorem writeRow_ok {irf : Name} {ns : List Name} (hn : ns.Nodup) (j : Nat) (m : Resp) (v : Name → ℝ)
    (srcs : List Src) (hs : ∀ x ∈ srcs, compName irf x.name ∈ ns)
    (hv : ∀ x ∈ srcs, response irf m x.name = .ok (v (compName irf x.name))) (cols : Cols)
    (hc : ∀ x ∈ srcs, ∀ i, ns[i]? = some (compName irf x.name) → (cols i).isSome) :
    ∃ cols', writeRow irf ns j m srcs cols = .ok cols' ∧
      (∀ i, cols' i = none ↔ cols i = none) ∧
      (∀ i c c', cols i = some c → cols' i = some c' → ∀ r, r ≠ j → c' r = c r) ∧
      (∀ x ∈ srcs, ∀ i c', ns[i]? = some (compName irf x.name) → cols' i = some c' →
        c' j = v (compName irf x.name)) ∧
      ∀ i c, cols i = some c → (∀ x ∈ srcs, ns[i]? ≠ some (compName irf x.name)) → cols' i = some c := by
  induction srcs generalizing cols with
  | nil =>
    refine ⟨cols, rfl, fun _ => Iff.rfl, ?_, fun x hx => by simp at hx, fun i c h _ => h⟩
    intro i c c' h h' r _
    rw [h] at h'
    cases h'
    rfl
  | cons a srcs ih =>
    obtain ⟨hk, hg⟩ := key_get (hs a List.mem_cons_self)
    obtain ⟨c0, hc0⟩ := Option.isSome_iff_exists.1 (hc a List.mem_cons_self _ hg)
    set i0 := ns.idxOf (compName irf a.name) with hi0
    set cols1 : Cols := fun k =>
      if k = i0 then some (fun r => if r = j then v (compName irf a.name) else c0 r) else cols k with hcols1
    have hset : setCell cols i0 j (v (compName irf a.name)) = .ok cols1 := by
      rw [setCell, hc0]
    have hnone : ∀ i, cols1 i = none ↔ cols i = none := by
      intro i
      rw [hcols1]
      simp only
      split
      · rename_i he
        rw [he, hc0]
        simp
      · exact Iff.rfl
    obtain ⟨cols', h1, h2, h3, h4, h5⟩ := ih (fun x hx => hs x (List.mem_cons_of_mem _ hx))
      (fun x hx => hv x (List.mem_cons_of_mem _ hx)) cols1 (by
        intro x hx i hi
        have := hc x (List.mem_cons_of_mem _ hx) i hi
        rw [Option.isSome_iff_ne_none] at this ⊢
        exact fun e => this ((hnone i).1 e))
    refine ⟨cols', ?_, ?_, ?_, ?_, ?_⟩
    · simp only [writeRow, hk, hv a List.mem_cons_self, Res.bind_ok, hset]
      exact h1
    · intro i
      rw [h2, hnone]
    · intro i c c' hi hi' r hr
      by_cases he : i = i0
      · have e1 : cols1 i = some (fun r => if r = j then v (compName irf a.name) else c0 r) := by
          rw [hcols1]
          simp only
          rw [if_pos he]
        rw [h3 i _ c' e1 hi' r hr, if_neg hr]
        rw [he, hc0] at hi
        cases hi
        rfl
      · exact h3 i c c' (by rw [hcols1]; simp only; rw [if_neg he]; exact hi) hi' r hr
    · intro x hx i c' hi hi'
      by_cases hx' : ∃ y ∈ srcs, compName irf y.name = compName irf x.name
      · obtain ⟨y, hy, he⟩ := hx'
        rw [← he]
        exact h4 y hy i c' (by rw [he]; exact hi) hi'
      · rcases List.mem_cons.1 hx with rfl | hx
        · have he : i = i0 := get_inj hn hi hg
          have e1 : cols1 i = some (fun r => if r = j then v (compName irf x.name) else c0 r) := by
            rw [hcols1]
            simp only
            rw [if_pos he]
          have := h5 i _ e1 (by
            intro y hy e
            rw [hi] at e
            exact hx' ⟨y, hy, (Option.some.inj e).symm⟩)
          rw [this] at hi'
          cases hi'
          simp
        · exact absurd ⟨x, hx, rfl⟩ hx'
    · intro i c hi hno
      refine h5 i c ?_ fun x hx => hno x (List.mem_cons_of_mem _ hx)
      rw [hcols1]
      simp only
      rw [if_neg]
      · exact hi
      · intro e
        exact hno a List.mem_cons_self (by rw [e]; exact hg)

end Verif.DiffRsp
