import Verif.Owner.Model
import Verif.Owner.Spec
import Mathlib.Tactic.Common

set_option linter.unusedSimpArgs false
set_option linter.unusedVariables false

/-!
# Lemmas about maps and their projections
-/

namespace Verif.Owner

open Spec (Value Values look)

variable {G : Type}

theorem deref_ok {h : List (Option G)} {p : ℕ} {g : G} (e : h[p]? = some (some g)) :
    deref h p = .ok g := by
  unfold deref; rw [e]

theorem deref_none {h : List (Option G)} {p : ℕ} (e : h[p]? = some none) :
    deref h p = .ub := by
  unfold deref; rw [e]

theorem free_ok {h : List (Option G)} {p : ℕ} {g : G} (e : h[p]? = some (some g)) :
    free h p = .ok (h.set p none) := by
  unfold free; rw [e]

theorem free_none {h : List (Option G)} {p : ℕ} (e : h[p]? = some none) :
    free h p = .ub := by
  unfold free; rw [e]

theorem obj_ok {s : St G} {i : ℕ} {o : Obj} (e : s.objs[i]? = some (some o)) :
    obj s i = .ok o := by
  unfold obj; rw [e]

theorem look_some {v : Values G} {i : ℕ} {x : Value G} :
    look v i = some x ↔ v[i]? = some (some x) := by
  unfold look
  cases h : v[i]? with
  | none => simp
  | some y => cases y <;> simp

/-- The maps of the program are the values of the client, each with a projection of its own, and
`k` projections are lost. -/
structure R (k : ℕ) (s : St G) (v : Values G) : Prop where
  len : s.objs.length = v.length
  live : ∀ (i : ℕ) (o : Obj), s.objs[i]? = some (some o) →
    ∃ g, s.heap[o.ptr]? = some (some g) ∧ v[i]? = some (some ⟨o.kind, o.wcs, g⟩)
  dead : ∀ i : ℕ, s.objs[i]? = some none → v[i]? = some none
  inj : ∀ (i j : ℕ) (o o' : Obj), s.objs[i]? = some (some o) → s.objs[j]? = some (some o') →
    o.ptr = o'.ptr → i = j
  cnt : alive s = existing s + k

theorem R.start : R 0 (⟨[], []⟩ : St G) [] where
  len := rfl
  live := by intro i o h; simp at h
  dead := by intro i h; simp at h
  inj := by intro i j o o' h; simp at h
  cnt := rfl

theorem R.look {k : ℕ} {s : St G} {v : Values G} (h : R k s v) {i : ℕ} {x : Value G}
    (e : Spec.look v i = some x) :
    ∃ o : Obj, s.objs[i]? = some (some o) ∧ s.heap[o.ptr]? = some (some x.geom) ∧
      o.kind = x.kind ∧ o.wcs = x.wcs := by
  rw [look_some] at e
  have hi : i < v.length := by
    by_contra hc
    rw [List.getElem?_eq_none (by omega)] at e
    cases e
  have hi' : i < s.objs.length := by rw [h.len]; exact hi
  cases ho : s.objs[i]? with
  | none => rw [List.getElem?_eq_none_iff] at ho; omega
  | some o =>
    cases o with
    | none => rw [h.dead i ho] at e; cases e
    | some o =>
      obtain ⟨g, hg, hv⟩ := h.live i o ho
      rw [hv] at e
      simp only [Option.some.injEq] at e
      subst e
      exact ⟨o, rfl, hg, rfl, rfl⟩

theorem R.bound {k : ℕ} {s : St G} {v : Values G} (h : R k s v) {i : ℕ} {o : Obj}
    (e : s.objs[i]? = some (some o)) : o.ptr < s.heap.length := by
  obtain ⟨g, hg, -⟩ := h.live i o e
  by_contra hc
  rw [List.getElem?_eq_none (by omega)] at hg
  cases hg

theorem R.count {k : ℕ} {s : St G} {v : Values G} (h : R k s v) :
    existing s = Spec.count v := by
  unfold existing Spec.count
  have e : s.objs.map (·.isSome) = v.map (·.isSome) := by
    apply List.ext_getElem?
    intro i
    rw [List.getElem?_map, List.getElem?_map]
    cases ho : s.objs[i]? with
    | none =>
      rw [List.getElem?_eq_none_iff, h.len] at ho
      rw [List.getElem?_eq_none ho]; rfl
    | some o =>
      cases o with
      | none => rw [h.dead i ho]; rfl
      | some o =>
        obtain ⟨g, -, hv⟩ := h.live i o ho
        rw [hv]; rfl
  have c1 := List.countP_map (p := id) (f := fun o : Option Obj => o.isSome) (l := s.objs)
  have c2 := List.countP_map (p := id) (f := fun o : Option (Value G) => o.isSome) (l := v)
  have e1 : s.objs.countP (·.isSome) = s.objs.countP (id ∘ (fun o : Option Obj => o.isSome)) := rfl
  have e2 : v.countP (·.isSome) = v.countP (id ∘ (fun o : Option (Value G) => o.isSome)) := rfl
  rw [e1, e2, ← c1, ← c2, e]

/-- A new object, with a projection no other one holds. -/
theorem R.push {k d : ℕ} {s : St G} {v : Values G} (h : R k s v) (kd : Kind) (w : Bool) (g : G)
    (heap' : List (Option G)) (p : ℕ) (hp : s.heap.length ≤ p)
    (keep : ∀ (q : ℕ) (g : G), s.heap[q]? = some (some g) → heap'[q]? = some (some g))
    (new : heap'[p]? = some (some g))
    (c : heap'.countP (·.isSome) = alive s + 1 + d) :
    R (k + d) ⟨heap', s.objs ++ [some ⟨kd, w, p⟩]⟩ (v ++ [some ⟨kd, w, g⟩]) where
  len := by simp [h.len]
  live := by
    intro i o ho
    simp only [] at ho
    rcases Nat.lt_trichotomy i s.objs.length with hi | hi | hi
    · rw [List.getElem?_append_left hi] at ho
      obtain ⟨g', hg, hv⟩ := h.live i o ho
      refine ⟨g', keep _ _ hg, ?_⟩
      rw [List.getElem?_append_left (by rw [← h.len]; exact hi)]
      exact hv
    · subst hi
      rw [List.getElem?_append_right (Nat.le_refl _)] at ho
      simp at ho
      subst ho
      refine ⟨g, new, ?_⟩
      rw [h.len, List.getElem?_append_right (Nat.le_refl _)]
      simp
    · rw [List.getElem?_eq_none (by simp; omega)] at ho
      cases ho
  dead := by
    intro i ho
    simp only [] at ho
    rcases Nat.lt_trichotomy i s.objs.length with hi | hi | hi
    · rw [List.getElem?_append_left hi] at ho
      rw [List.getElem?_append_left (by rw [← h.len]; exact hi)]
      exact h.dead i ho
    · subst hi
      rw [List.getElem?_append_right (Nat.le_refl _)] at ho
      simp at ho
    · rw [List.getElem?_eq_none (by simp; omega)] at ho
      cases ho
  inj := by
    have key : ∀ (i : ℕ) (o : Obj), (s.objs ++ [some ⟨kd, w, p⟩])[i]? = some (some o) →
        (s.objs[i]? = some (some o) ∧ o.ptr < p) ∨ (i = s.objs.length ∧ o.ptr = p) := by
      intro i o ho
      rcases Nat.lt_trichotomy i s.objs.length with hi | hi | hi
      · rw [List.getElem?_append_left hi] at ho
        exact Or.inl ⟨ho, by have := h.bound ho; omega⟩
      · subst hi
        rw [List.getElem?_append_right (Nat.le_refl _)] at ho
        simp at ho
        subst ho
        exact Or.inr ⟨rfl, rfl⟩
      · rw [List.getElem?_eq_none (by simp; omega)] at ho
        cases ho
    intro i j o o' hi hj he
    rcases key i o hi with ⟨a, b⟩ | ⟨a, b⟩ <;> rcases key j o' hj with ⟨a', b'⟩ | ⟨a', b'⟩
    · exact h.inj i j o o' a a' he
    · omega
    · omega
    · omega
  cnt := by
    have := h.cnt
    unfold alive existing at *
    simp only [List.countP_append, List.countP_cons, List.countP_nil, Option.isSome_some,
      if_true] at *
    omega

theorem R.make {k : ℕ} {s : St G} {v : Values G} (h : R k s v) (kd : Kind) (w : Bool) (g : G) :
    R k (make s kd w g) (v ++ [some ⟨kd, w, g⟩]) := by
  have := h.push (d := 0) kd w g (s.heap ++ [some g]) s.heap.length (Nat.le_refl _)
    (by
      intro q g' hq
      rw [List.getElem?_append_left]
      · exact hq
      · by_contra hc
        rw [List.getElem?_eq_none (by omega)] at hq
        cases hq)
    (by rw [List.getElem?_append_right (Nat.le_refl _)]; simp)
    (by simp [alive, List.countP_append])
  exact this

theorem countP_free {h : List (Option G)} {p : ℕ} {g : G} (e : h[p]? = some (some g)) :
    (h.set p none).countP (·.isSome) + 1 = h.countP (·.isSome) := by
  obtain ⟨hp, e'⟩ := List.getElem?_eq_some_iff.1 e
  rw [List.countP_set hp]
  rw [e']
  have : 0 < h.countP (·.isSome) := by
    rw [List.countP_pos_iff]
    exact ⟨h[p], List.getElem_mem hp, by rw [e']; rfl⟩
  simp
  omega

theorem countP_obj {l : List (Option Obj)} {i : ℕ} {o : Obj} (e : l[i]? = some (some o))
    (x : Option Obj) :
    (l.set i x).countP (·.isSome) + 1 = l.countP (·.isSome) + (if x.isSome then 1 else 0) := by
  obtain ⟨hp, e'⟩ := List.getElem?_eq_some_iff.1 e
  rw [List.countP_set hp]
  rw [e']
  have : 0 < l.countP (·.isSome) := by
    rw [List.countP_pos_iff]
    exact ⟨l[i], List.getElem_mem hp, by rw [e']; rfl⟩
  simp
  omega

theorem R.del {k : ℕ} {s : St G} {v : Values G} (h : R k s v) {i : ℕ} {o : Obj} {g : G}
    (ho : s.objs[i]? = some (some o)) (hg : s.heap[o.ptr]? = some (some g)) :
    R k ⟨s.heap.set o.ptr none, s.objs.set i none⟩ (v.set i none) where
  len := by simp [h.len]
  live := by
    intro j o' hj
    simp only [List.getElem?_set] at hj
    by_cases hij : i = j
    · subst hij
      rw [if_pos rfl] at hj
      split at hj <;> simp at hj
    · rw [if_neg hij] at hj
      obtain ⟨g', hg', hv⟩ := h.live j o' hj
      refine ⟨g', ?_, ?_⟩
      · rw [List.getElem?_set_ne]
        · exact hg'
        · intro he; exact hij (h.inj i j o o' ho hj he)
      · rw [List.getElem?_set_ne hij]; exact hv
  dead := by
    intro j hj
    by_cases hij : i = j
    · subst hij
      have hi : i < s.objs.length := by
        by_contra hc
        rw [List.getElem?_eq_none (by omega)] at ho
        cases ho
      rw [List.getElem?_set_self (by rw [← h.len]; exact hi)]
    · simp only [] at hj
      rw [List.getElem?_set_ne hij] at hj ⊢
      exact h.dead j hj
  inj := by
    have key : ∀ (j : ℕ) (o' : Obj), (s.objs.set i none)[j]? = some (some o') →
        s.objs[j]? = some (some o') := by
      intro j o' hj
      by_cases hij : i = j
      · subst hij
        rw [List.getElem?_set] at hj
        rw [if_pos rfl] at hj
        split at hj <;> simp at hj
      · rw [List.getElem?_set_ne hij] at hj
        exact hj
    intro a b oa ob ha hb he
    exact h.inj a b oa ob (key _ _ ha) (key _ _ hb) he
  cnt := by
    have h1 := countP_free hg
    have h2 := countP_obj ho none
    have h3 := h.cnt
    unfold alive existing at *
    simp only [Option.isSome_none, Bool.false_eq_true, if_false] at *
    omega

theorem R.assign {k : ℕ} {s : St G} {v : Values G} (h : R k s v) {i j : ℕ} {a b : Obj} {g g' : G}
    (hij : i ≠ j)
    (ha : s.objs[i]? = some (some a)) (hg : s.heap[a.ptr]? = some (some g))
    (hb : s.objs[j]? = some (some b)) (hg' : s.heap[b.ptr]? = some (some g')) :
    R k ⟨s.heap.set a.ptr none ++ [some g'],
        s.objs.set i (some ⟨a.kind, a.wcs, (s.heap.set a.ptr none).length⟩)⟩
      (v.set i (some ⟨a.kind, a.wcs, g'⟩)) where
  len := by simp [h.len]
  live := by
    intro m o hm
    have hi : i < s.objs.length := by
      by_contra hc
      rw [List.getElem?_eq_none (by omega)] at ha
      cases ha
    by_cases him : i = m
    · subst him
      simp only [] at hm
      rw [List.getElem?_set_self hi] at hm
      simp at hm
      subst hm
      refine ⟨g', ?_, ?_⟩
      · rw [List.getElem?_append_right (by simp)]
        simp
      · rw [List.getElem?_set_self (by rw [← h.len]; exact hi)]
    · simp only [] at hm
      rw [List.getElem?_set_ne him] at hm
      obtain ⟨g2, hg2, hv⟩ := h.live m o hm
      have hb' := h.bound hm
      refine ⟨g2, ?_, ?_⟩
      · rw [List.getElem?_append_left (by simpa using hb'), List.getElem?_set_ne]
        · exact hg2
        · intro he; exact him (h.inj i m a o ha hm he)
      · rw [List.getElem?_set_ne him]; exact hv
  dead := by
    intro m hm
    have hi : i < s.objs.length := by
      by_contra hc
      rw [List.getElem?_eq_none (by omega)] at ha
      cases ha
    by_cases him : i = m
    · subst him
      simp only [] at hm
      rw [List.getElem?_set_self hi] at hm
      simp at hm
    · simp only [] at hm
      rw [List.getElem?_set_ne him] at hm ⊢
      exact h.dead m hm
  inj := by
    have hi : i < s.objs.length := by
      by_contra hc
      rw [List.getElem?_eq_none (by omega)] at ha
      cases ha
    have key : ∀ (m : ℕ) (o : Obj),
        (s.objs.set i (some ⟨a.kind, a.wcs, (s.heap.set a.ptr none).length⟩))[m]? =
          some (some o) →
        (s.objs[m]? = some (some o) ∧ o.ptr < s.heap.length) ∨
          (m = i ∧ o.ptr = s.heap.length) := by
      intro m o hm
      by_cases him : i = m
      · subst him
        rw [List.getElem?_set_self hi] at hm
        simp at hm
        subst hm
        exact Or.inr ⟨rfl, rfl⟩
      · rw [List.getElem?_set_ne him] at hm
        exact Or.inl ⟨hm, h.bound hm⟩
    intro x y ox oy hx hy he
    rcases key x ox hx with ⟨p, q⟩ | ⟨p, q⟩ <;> rcases key y oy hy with ⟨p', q'⟩ | ⟨p', q'⟩
    · exact h.inj x y ox oy p p' he
    · omega
    · omega
    · omega
  cnt := by
    have h1 := countP_free hg
    have h2 := countP_obj ha (some ⟨a.kind, a.wcs, (s.heap.set a.ptr none).length⟩)
    have h3 := h.cnt
    unfold alive existing at *
    simp only [List.countP_append, List.countP_cons, List.countP_nil, Option.isSome_some,
      if_true] at *
    omega

theorem layers_eq {h : List (Option G)} {p : ℕ} {g : G} (n : ℕ) (e : h[p]? = some (some g)) :
    layers h p n = .ok (h ++ List.replicate n none) := by
  induction n generalizing h with
  | zero => simp [layers]
  | succ n ih =>
    rw [layers, deref_ok e]
    simp only [Res.bind_ok]
    have e1 : (h ++ [some g])[h.length]? = some (some g) := by
      rw [List.getElem?_append_right (Nat.le_refl _)]; simp
    rw [free_ok e1]
    simp only [Res.bind_ok]
    have e2 : (h ++ [some g]).set h.length none = h ++ [none] := by
      rw [List.set_append_right _ _ (Nat.le_refl _)]; simp
    rw [e2]
    have e3 : (h ++ [none])[p]? = some (some g) := by
      rw [List.getElem?_append_left]
      · exact e
      · by_contra hc
        rw [List.getElem?_eq_none (by omega)] at e
        cases e
    rw [ih e3, List.replicate_succ]
    simp

/-- What `bkgEff` leaves in the store. -/
theorem bkgEff_eq {s : St G} {i n : ℕ} {o : Obj} {g : G}
    (ho : s.objs[i]? = some (some o)) (hg : s.heap[o.ptr]? = some (some g))
    (hk : o.kind = .counts) :
    bkgEff s i n = .ok
      ⟨(if o.wcs then s.heap.set o.ptr none ++ [some g, none] else s.heap ++ [some g, none, none])
          ++ List.replicate n none,
        s.objs ++ [some ⟨.counts, o.wcs, s.heap.length⟩]⟩ := by
  have hb : o.ptr < s.heap.length := by
    by_contra hc
    rw [List.getElem?_eq_none (by omega)] at hg
    cases hg
  unfold bkgEff
  rw [obj_ok ho]
  simp only [Res.bind_ok]
  rw [if_neg (by rw [hk]; intro hc; cases hc), deref_ok hg]
  simp only [Res.bind_ok]
  unfold projPtr
  cases hw : o.wcs with
  | true =>
    simp only [if_true]
    have e1 : (s.heap ++ [some g])[o.ptr]? = some (some g) := by
      rw [List.getElem?_append_left hb]; exact hg
    rw [deref_ok e1]
    simp only [Res.bind_ok]
    have e2 : (s.heap ++ [some g] ++ [some g])[o.ptr]? = some (some g) := by
      rw [List.getElem?_append_left (by simp; omega)]; exact e1
    rw [layers_eq n e2]
    simp only [Res.bind_ok]
    have e3 : (s.heap ++ [some g] ++ [some g] ++ List.replicate n none)[o.ptr]? =
        some (some g) := by
      rw [List.getElem?_append_left (by simp; omega)]; exact e2
    rw [free_ok e3]
    simp only [Res.bind_ok]
    have e4 : (s.heap ++ [some g] ++ [some g] ++ List.replicate n none).set o.ptr none =
        s.heap.set o.ptr none ++ [some g] ++ [some g] ++ List.replicate n none := by
      rw [List.set_append_left _ _ (by simp; omega), List.set_append_left _ _ (by simp; omega),
        List.set_append_left _ _ hb]
    rw [e4]
    have e5 : (s.heap.set o.ptr none ++ [some g] ++ [some g] ++ List.replicate n none)[
        (s.heap ++ [some g]).length]? = some (some g) := by
      rw [List.getElem?_append_left (by simp), List.getElem?_append_right (by simp)]
      simp
    rw [free_ok e5]
    simp only [Res.bind_ok]
    have e6 : (s.heap.set o.ptr none ++ [some g] ++ [some g] ++ List.replicate n none).set
        (s.heap ++ [some g]).length none =
        s.heap.set o.ptr none ++ [some g, none] ++ List.replicate n none := by
      rw [List.set_append_left _ _ (by simp), List.set_append_right _ _ (by simp)]
      simp
    rw [e6]
  | false =>
    simp only [Bool.false_eq_true, if_false]
    have e1 : (s.heap ++ [some g] ++ [some g])[(s.heap ++ [some g]).length]? = some (some g) := by
      rw [List.getElem?_append_right (Nat.le_refl _)]; simp
    rw [deref_ok e1]
    simp only [Res.bind_ok]
    have e2 : (s.heap ++ [some g] ++ [some g] ++ [some g])[(s.heap ++ [some g]).length]? =
        some (some g) := by
      rw [List.getElem?_append_left (by simp)]; exact e1
    rw [layers_eq n e2]
    simp only [Res.bind_ok]
    have e3 : (s.heap ++ [some g] ++ [some g] ++ [some g] ++ List.replicate n none)[
        (s.heap ++ [some g]).length]? = some (some g) := by
      rw [List.getElem?_append_left (by simp)]; exact e2
    rw [free_ok e3]
    simp only [Res.bind_ok]
    have e4 : (s.heap ++ [some g] ++ [some g] ++ [some g] ++ List.replicate n none).set
        (s.heap ++ [some g]).length none =
        s.heap ++ [some g] ++ [none] ++ [some g] ++ List.replicate n none := by
      rw [List.set_append_left _ _ (by simp), List.set_append_left _ _ (by simp),
        List.set_append_right _ _ (by simp)]
      simp
    rw [e4]
    have e5 : (s.heap ++ [some g] ++ [none] ++ [some g] ++ List.replicate n none)[
        (s.heap ++ [some g] ++ [some g]).length]? = some (some g) := by
      rw [List.getElem?_append_left (by simp), List.getElem?_append_right (by simp)]
      simp
    rw [free_ok e5]
    simp only [Res.bind_ok]
    have e6 : (s.heap ++ [some g] ++ [none] ++ [some g] ++ List.replicate n none).set
        (s.heap ++ [some g] ++ [some g]).length none =
        s.heap ++ [some g, none, none] ++ List.replicate n none := by
      rw [List.set_append_left _ _ (by simp), List.set_append_right _ _ (by simp)]
      simp
    rw [e6]

/-- One call that shares no projection. -/
theorem step_R (reb : ℕ → G → G) {k : ℕ} {s : St G} {v v' : Values G} {op : Op G} {x : Option G}
    (h : R k s v) (hs : Spec.step reb v op = some (v', x)) (hn : ¬ Spec.Shares v op) :
    ∃ s', step reb s op = .ok (s', x) ∧ R (k + Spec.rebins [op]) s' v' := by
  cases op with
  | make kd w g =>
    simp only [Spec.step, Option.some.injEq, Prod.mk.injEq] at hs
    obtain ⟨rfl, rfl⟩ := hs
    exact ⟨_, rfl, h.make kd w g⟩
  | copy i =>
    simp only [Spec.step, Option.map_eq_some_iff, Prod.mk.injEq] at hs
    obtain ⟨y, hy, rfl, rfl⟩ := hs
    obtain ⟨o, ho, hg, hk, hw⟩ := h.look hy
    refine ⟨make s o.kind o.wcs y.geom, ?_, ?_⟩
    · simp only [step, copy, obj_ok ho, deref_ok hg, Res.bind_ok]
    · rw [hk, hw]; exact h.make _ _ _
  | ofCounts i =>
    simp only [Spec.step, Option.bind_eq_some_iff] at hs
    obtain ⟨y, hy, hs⟩ := hs
    obtain ⟨o, ho, hg, hk, hw⟩ := h.look hy
    have hw' : y.wcs = false := by
      cases hc : y.wcs with
      | false => rfl
      | true => exact (hn ⟨y, hy, hc⟩).elim
    by_cases hkc : y.kind = .counts
    · rw [if_pos hkc] at hs
      simp only [Option.some.injEq, Prod.mk.injEq] at hs
      obtain ⟨rfl, rfl⟩ := hs
      refine ⟨make s .map false y.geom, ?_, ?_⟩
      · simp only [step, ofCounts, obj_ok ho, deref_ok hg, Res.bind_ok, hk, hkc, hw, hw']
      · rw [hw']; exact h.make _ _ _
    · rw [if_neg hkc] at hs; cases hs
  | assign i j =>
    simp only [Spec.step, Option.bind_eq_some_iff] at hs
    obtain ⟨y, hy, z, hz, hs⟩ := hs
    obtain ⟨a, ha, hga, hka, hwa⟩ := h.look hy
    obtain ⟨b, hb, hgb, hkb, hwb⟩ := h.look hz
    by_cases hc : y.kind = .map ∧ z.kind = .map ∧ y.wcs = z.wcs
    · rw [if_pos hc] at hs
      simp only [Option.some.injEq, Prod.mk.injEq] at hs
      obtain ⟨rfl, rfl⟩ := hs
      have hne : ¬ (a.kind = .counts ∨ b.kind = .counts ∨ a.wcs ≠ b.wcs) := by
        rw [hka, hkb, hwa, hwb, hc.1, hc.2.1, hc.2.2]
        simp
      by_cases hij : i = j
      · subst hij
        refine ⟨s, ?_, ?_⟩
        · simp only [step, assign, obj_ok ha, Res.bind_ok, if_pos]
          rw [ha] at hb
          simp only [Option.some.injEq] at hb
          subst hb
          rw [if_neg hne]
          rfl
        · have : v.set i (some ⟨.map, y.wcs, z.geom⟩) = v := by
            rw [hy] at hz
            simp only [Option.some.injEq] at hz
            subst hz
            have hv := look_some.1 hy
            obtain ⟨hp, e'⟩ := List.getElem?_eq_some_iff.1 hv
            have e2 : (⟨.map, y.wcs, y.geom⟩ : Value G) = y := by
              rw [← hc.1]
            rw [e2, ← e', List.set_getElem_self]
          rw [this]
          exact h
      · have hb' : (s.heap.set a.ptr none)[b.ptr]? = some (some z.geom) := by
          rw [List.getElem?_set_ne]
          · exact hgb
          · intro he; exact hij (h.inj i j a b ha hb he)
        have hr := h.assign hij ha hga hb hgb
        rw [hka, hwa, hc.1] at hr
        refine ⟨_, ?_, hr⟩
        simp only [step, assign, obj_ok ha, obj_ok hb, Res.bind_ok]
        rw [if_neg hne, if_neg hij, free_ok hga]
        simp only [Res.bind_ok]
        rw [deref_ok hb', hka, hwa, hc.1]
        rfl
    · rw [if_neg hc] at hs; cases hs
  | rebin i f =>
    simp only [Spec.step, Option.bind_eq_some_iff] at hs
    obtain ⟨y, hy, hs⟩ := hs
    obtain ⟨o, ho, hg, hk, hw⟩ := h.look hy
    by_cases hc : y.kind = .map ∧ y.wcs = true
    · rw [if_pos hc] at hs
      simp only [Option.some.injEq, Prod.mk.injEq] at hs
      obtain ⟨rfl, rfl⟩ := hs
      refine ⟨⟨s.heap ++ [some y.geom] ++ [some (reb f y.geom)],
        s.objs ++ [some ⟨.map, true, (s.heap ++ [some y.geom]).length⟩]⟩, ?_, ?_⟩
      · simp only [step, rebin, obj_ok ho, deref_ok hg, Res.bind_ok, hk, hw, hc.1, hc.2]
      · refine h.push (d := 1) .map true (reb f y.geom)
          (s.heap ++ [some y.geom] ++ [some (reb f y.geom)]) (s.heap ++ [some y.geom]).length
          (by simp) ?_ ?_ ?_
        · intro q g' hq
          have hb : q < s.heap.length := by
            by_contra hc
            rw [List.getElem?_eq_none (by omega)] at hq
            cases hq
          rw [List.getElem?_append_left (by simp; omega), List.getElem?_append_left hb]
          exact hq
        · rw [List.getElem?_append_right (Nat.le_refl _)]; simp
        · simp [alive, List.countP_append]
    · rw [if_neg hc] at hs; cases hs
  | del i =>
    simp only [Spec.step, Option.map_eq_some_iff, Prod.mk.injEq] at hs
    obtain ⟨y, hy, rfl, rfl⟩ := hs
    obtain ⟨o, ho, hg, hk, hw⟩ := h.look hy
    refine ⟨_, ?_, h.del ho hg⟩
    simp only [step, del, obj_ok ho, free_ok hg, Res.bind_ok]
  | use i =>
    simp only [Spec.step, Option.map_eq_some_iff, Prod.mk.injEq] at hs
    obtain ⟨y, hy, rfl, rfl⟩ := hs
    obtain ⟨o, ho, hg, hk, hw⟩ := h.look hy
    refine ⟨s, ?_, h⟩
    simp only [step, useProj, obj_ok ho, deref_ok hg, Res.bind_ok]
  | bkgEff i n =>
    simp only [Spec.step, Option.bind_eq_some_iff] at hs
    obtain ⟨y, hy, hs⟩ := hs
    obtain ⟨o, ho, hg, hk, hw⟩ := h.look hy
    have hw' : y.wcs = false := by
      cases hc : y.wcs with
      | false => rfl
      | true => exact (hn ⟨y, hy, hc⟩).elim
    by_cases hkc : y.kind = .counts
    · rw [if_pos hkc] at hs
      simp only [Option.some.injEq, Prod.mk.injEq] at hs
      obtain ⟨rfl, rfl⟩ := hs
      have hb := h.bound ho
      refine ⟨⟨s.heap ++ [some y.geom, none, none] ++ List.replicate n none,
        s.objs ++ [some ⟨.counts, false, s.heap.length⟩]⟩, ?_, ?_⟩
      · simp only [step, bkgEff_eq ho hg (hk.trans hkc), Res.bind_ok, hw, hw', Bool.false_eq_true,
          if_false]
      · have e : y = ⟨.counts, false, y.geom⟩ := by rw [← hkc, ← hw']
        have := h.push (d := 0) .counts false y.geom
          (s.heap ++ [some y.geom, none, none] ++ List.replicate n none) s.heap.length
          (Nat.le_refl _)
          (by
            intro q g' hq
            have hb : q < s.heap.length := by
              by_contra hc
              rw [List.getElem?_eq_none (by omega)] at hq
              cases hq
            rw [List.getElem?_append_left (by simp; omega), List.getElem?_append_left hb]
            exact hq)
          (by
            rw [List.getElem?_append_left (by simp),
              List.getElem?_append_right (Nat.le_refl _)]
            simp)
          (by simp [alive, List.countP_append, List.countP_replicate])
        rw [← e] at this
        exact this
    · rw [if_neg hkc] at hs; cases hs

theorem rebins_cons (op : Op G) (ops : List (Op G)) :
    Spec.rebins (op :: ops) = Spec.rebins [op] + Spec.rebins ops := by
  cases op <;> simp [Spec.rebins, Nat.add_comm]

theorem run_R (reb : ℕ → G → G) (ops : List (Op G)) {k : ℕ} {s : St G} {v v' : Values G}
    {xs : List (Option G)}
    (h : R k s v) (hs : Spec.run reb v ops = some (v', xs)) (hn : Spec.NoShare reb v ops) :
    ∃ s', run reb s ops = .ok (s', xs) ∧ R (k + Spec.rebins ops) s' v' := by
  induction ops generalizing k s v xs with
  | nil =>
    simp only [Spec.run, Option.some.injEq, Prod.mk.injEq] at hs
    obtain ⟨rfl, rfl⟩ := hs
    exact ⟨s, rfl, h⟩
  | cons op ops ih =>
    simp only [Spec.run, Option.bind_eq_some_iff, Option.map_eq_some_iff, Prod.mk.injEq] at hs
    obtain ⟨⟨v1, x⟩, h1, ⟨v2, ys⟩, h2, rfl, rfl⟩ := hs
    obtain ⟨s1, e1, r1⟩ := step_R reb h h1 hn.1
    obtain ⟨s2, e2, r2⟩ := ih r1 h2 (hn.2 _ h1)
    refine ⟨s2, ?_, ?_⟩
    · simp only [run, e1, Res.bind_ok, e2]
    · rw [rebins_cons, ← Nat.add_assoc]; exact r2

theorem run_append (reb : ℕ → G → G) (a b : List (Op G)) {s s' : St G} {xs : List (Option G)}
    (h : run reb s a = .ok (s', xs)) :
    run reb s (a ++ b) = (run reb s' b >>= fun r => .ok (r.1, xs ++ r.2)) := by
  induction a generalizing s xs with
  | nil =>
    simp only [run, Res.ok.injEq, Prod.mk.injEq] at h
    obtain ⟨rfl, rfl⟩ := h
    simp only [List.nil_append]
    cases run reb s b <;> rfl
  | cons op a ih =>
    simp only [run] at h
    obtain ⟨r, h1, h⟩ := Res.bind_eq_ok.1 h
    obtain ⟨r', h2, h⟩ := Res.bind_eq_ok.1 h
    simp only [Res.ok.injEq, Prod.mk.injEq] at h
    obtain ⟨rfl, rfl⟩ := h
    simp only [List.cons_append, run, h1, Res.bind_ok, ih h2]
    cases run reb r'.1 b <;> rfl

theorem spec_run_append (reb : ℕ → G → G) (a b : List (Op G)) {v v' : Values G}
    {xs : List (Option G)} (h : Spec.run reb v a = some (v', xs)) :
    Spec.run reb v (a ++ b) = (Spec.run reb v' b).map (fun r => (r.1, xs ++ r.2)) := by
  induction a generalizing v xs with
  | nil =>
    simp only [Spec.run, Option.some.injEq, Prod.mk.injEq] at h
    obtain ⟨rfl, rfl⟩ := h
    simp
  | cons op a ih =>
    simp only [Spec.run, Option.bind_eq_some_iff, Option.map_eq_some_iff, Prod.mk.injEq] at h
    obtain ⟨r, h1, r', h2, rfl, rfl⟩ := h
    simp only [List.cons_append, Spec.run, h1, Option.bind_some, ih h2, Option.map_map]
    rfl

end Verif.Owner
