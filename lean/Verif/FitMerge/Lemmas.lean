import Verif.FitMerge.Model
import Verif.FitMerge.Spec
import Verif.Energy.Lemmas
import Mathlib.Tactic.Linarith
import Mathlib.Tactic.NormNum
import Mathlib.Algebra.Order.BigOperators.Group.List
set_option linter.unusedSectionVars false
set_option linter.unusedSimpArgs false
set_option linter.unusedVariables false
namespace Verif.FitMerge
open Verif Spec

/-! ### The lowest energy -/

/-- The current energies of the components. -/
def heads (ps : List (List ℝ × Nat)) : List ℝ := ps.filterMap fun p => p.1[p.2]?

theorem lowest_spec : ∀ (ps : List (List ℝ × Nat)) (acc : Option ℝ), (∀ v ∈ heads ps, v < 1e32) →
    (∀ a ∈ acc, a < 1e32) →
    match lowest ps acc with
    | none => acc = none ∧ heads ps = []
    | some v => (v ∈ heads ps ∨ acc = some v) ∧ (∀ a ∈ acc, v ≤ a) ∧ ∀ w ∈ heads ps, v ≤ w
  | [], acc, _, _ => by
    unfold lowest
    cases acc with
    | none => exact ⟨rfl, rfl⟩
    | some a => simp [heads]
  | (b, i) :: ps, acc, hb, ha => by
    unfold lowest
    cases hi : b[i]? with
    | none =>
      have hh : heads ((b, i) :: ps) = heads ps := by simp [heads, hi]
      rw [hh] at hb ⊢
      exact lowest_spec ps acc hb ha
    | some v =>
      have hh : heads ((b, i) :: ps) = v :: heads ps := by simp [heads, hi]
      rw [hh] at hb ⊢
      have hv : v < 1e32 := hb v (by simp)
      by_cases hlt : v < acc.getD 1e32
      · simp only [if_pos hlt]
        have ih := lowest_spec ps (some v) (fun w hw => hb w (by simp [hw])) (by simpa using hv)
        cases hl : lowest ps (some v) with
        | none => rw [hl] at ih; simp at ih
        | some u =>
          rw [hl] at ih
          obtain ⟨h1, h2, h3⟩ := ih
          have huv : u ≤ v := h2 v rfl
          refine ⟨Or.inl ?_, ?_, ?_⟩
          · rcases h1 with h1 | h1
            · simp [h1]
            · cases h1; simp
          · intro a hm
            cases hm
            simp at hlt
            linarith
          · intro w hw
            rcases List.mem_cons.1 hw with rfl | hw
            · exact huv
            · exact h3 w hw
      · simp only [if_neg hlt]
        have hacc : ∃ a, acc = some a := by
          cases acc with
          | none => simp at hlt; linarith
          | some a => exact ⟨a, rfl⟩
        obtain ⟨a, rfl⟩ := hacc
        have ih := lowest_spec ps (some a) (fun w hw => hb w (by simp [hw])) ha
        simp at hlt
        cases hl : lowest ps (some a) with
        | none => rw [hl] at ih; simp at ih
        | some u =>
          rw [hl] at ih
          obtain ⟨h1, h2, h3⟩ := ih
          have hua : u ≤ a := h2 a rfl
          refine ⟨?_, h2, ?_⟩
          · rcases h1 with h1 | h1
            · left; simp [h1]
            · right; exact h1
          · intro w hw
            rcases List.mem_cons.1 hw with rfl | hw
            · linarith
            · exact h3 w hw

/-- The bin that begins at an energy: its number. -/
noncomputable def binAt (b : List ℝ) (e : ℝ) : Int :=
  open Classical in
  match b.findIdx? (fun a => decide (a = e)) with
  | none => -1
  | some k => if k + 1 < b.length then (k : Int) else -1

theorem binAt_none {b : List ℝ} {e : ℝ} (h : e ∉ b) : binAt b e = -1 := by
  unfold binAt
  rw [List.findIdx?_eq_none_iff.2 (fun a ha => by simp; rintro rfl; exact h ha)]

theorem binAt_some {b : List ℝ} (hs : b.Pairwise (· < ·)) {i : Nat} {e : ℝ} (h : b[i]? = some e) :
    binAt b e = if i + 1 < b.length then (i : Int) else -1 := by
  unfold binAt
  obtain ⟨hi, hv⟩ := List.getElem?_eq_some_iff.1 h
  have : b.findIdx? (fun a => @decide (a = e) (Classical.propDecidable _)) = some i := by
    rw [List.findIdx?_eq_some_iff_getElem]
    refine ⟨hi, by simp [hv], fun j hj => ?_⟩
    have := List.pairwise_iff_getElem.1 hs j i (by omega) hi hj
    simp
    rw [hv] at this
    exact ne_of_lt this
  rw [this]

theorem drop_head {b : List ℝ} {i : Nat} {v : ℝ} (h : b[i]? = some v) : b.drop i = v :: b.drop (i + 1) := by
  obtain ⟨hi, rfl⟩ := List.getElem?_eq_some_iff.1 h
  exact List.drop_eq_getElem_cons hi

/-- What one component does. -/
theorem advance_ok {tol low : ℝ} (htol : 0 < tol) {b : List ℝ} {i : Nat} (hs : b.Pairwise (· < ·))
    (hi : i ≤ b.length)
    (htake : ∀ a ∈ b.take i, a < low) (hdrop : ∀ c ∈ b.drop i, low ≤ c) (hap : ∀ c ∈ b, |low - c| < tol → low = c) :
    (advance tol low b i).1 = binAt b low ∧ (advance tol low b i).2 ≤ b.length ∧
    (∀ a ∈ b.take (advance tol low b i).2, a ≤ low) ∧
    (∀ c ∈ b.drop (advance tol low b i).2, c ∈ b.drop i ∧ low < c) ∧
    (∀ c ∈ b.drop i, c = low ∨ c ∈ b.drop (advance tol low b i).2) ∧
    b.length - (advance tol low b i).2 ≤ b.length - i ∧
    (low ∈ b.drop i → b.length - (advance tol low b i).2 < b.length - i) := by
  have hsplit : ∀ c ∈ b, c ∈ b.take i ∨ c ∈ b.drop i := by
    intro c hc
    rw [← List.take_append_drop i b] at hc
    exact List.mem_append.1 hc
  unfold advance
  cases hv : b[i]? with
  | none =>
    simp only
    have hd : b.drop i = [] := List.drop_eq_nil_of_le (List.getElem?_eq_none_iff.1 hv)
    refine ⟨(binAt_none fun h => ?_).symm, hi, fun a ha => (htake a ha).le, ?_, fun c hc => Or.inr hc, le_rfl, ?_⟩
    · rcases hsplit _ h with h | h
      · exact lt_irrefl _ (htake _ h)
      · rw [hd] at h; cases h
    · rw [hd]; intro c hc; cases hc
    · rw [hd]; intro hc; cases hc
  | some v =>
    have hlt : i < b.length := (List.getElem?_eq_some_iff.1 hv).1
    have hvb : v ∈ b := List.mem_of_getElem? hv
    have hd := drop_head hv
    have hs' : (v :: b.drop (i + 1)).Pairwise (· < ·) := by rw [← hd]; exact hs.sublist (List.drop_sublist _ _)
    have hlv : low ≤ v := hdrop v (by rw [hd]; simp)
    simp only
    by_cases h : |low - v| < tol
    · have he : low = v := hap v hvb h
      subst he
      rw [if_pos h]
      refine ⟨(binAt_some hs hv).symm, hlt, ?_, ?_, ?_, by simp only; omega, fun _ => by simp only; omega⟩
      · intro a ha
        rw [List.take_add_one, hv] at ha
        rcases List.mem_append.1 ha with ha | ha
        · exact (htake a ha).le
        · simp at ha; exact ha.le
      · intro c hc
        rw [hd]
        exact ⟨List.mem_cons_of_mem _ hc, (List.pairwise_cons.1 hs').1 c hc⟩
      · intro c hc
        rw [hd] at hc
        exact List.mem_cons.1 hc
    · rw [if_neg h]
      have hne : low ≠ v := by
        rintro rfl
        rw [sub_self, abs_zero] at h
        exact h htol
      have hlv' : low < v := lt_of_le_of_ne hlv hne
      have hall : ∀ c ∈ b.drop i, low < c := by
        intro c hc
        rw [hd] at hc
        rcases List.mem_cons.1 hc with rfl | hc
        · exact hlv'
        · exact lt_trans hlv' ((List.pairwise_cons.1 hs').1 c hc)
      refine ⟨(binAt_none fun hm => ?_).symm, hi, fun a ha => (htake a ha).le, fun c hc => ⟨hc, hall c hc⟩,
        fun c hc => Or.inr hc, le_rfl, fun hm => absurd (hall _ hm) (lt_irrefl _)⟩
      rcases hsplit _ hm with hm | hm
      · exact lt_irrefl _ (htake _ hm)
      · exact lt_irrefl _ (hall _ hm)

/-! ### The loop over energies -/

theorem zip_next {α β γ : Type} (g : α × β → γ) : ∀ (l : List α) (l' : List β), l.length = l'.length →
    l.zip ((l.zip l').map g) = (l.zip l').map fun p => (p.1, g p)
  | [], _, _ => rfl
  | a :: l, [], h => by simp at h
  | a :: l, b :: l', h => by
    simp only [List.zip_cons_cons, List.map_cons]
    rw [zip_next g l l' (by simpa using h)]

/-- The number of energies that are left. -/
def left (ps : List (List ℝ × Nat)) : Nat := (ps.map fun p => p.1.length - p.2).sum

theorem left_lt (g : List ℝ × Nat → Nat) : ∀ (ps : List (List ℝ × Nat)),
    (∀ p ∈ ps, p.1.length - g p ≤ p.1.length - p.2) → (∃ p ∈ ps, p.1.length - g p < p.1.length - p.2) →
    left (ps.map fun p => (p.1, g p)) < left ps := by
  intro ps h1 h2
  unfold left
  rw [List.map_map]
  exact List.sum_lt_sum _ _ h1 h2

/-- The invariant of the loop. -/
structure Inv (tol : ℝ) (ps : List (List ℝ × Nat)) : Prop where
  sorted : ∀ p ∈ ps, p.1.Pairwise (· < ·)
  range : ∀ p ∈ ps, ∀ e ∈ p.1, 0 < e ∧ e < 1e32
  idx : ∀ p ∈ ps, p.2 ≤ p.1.length
  apart : ∀ p ∈ ps, ∀ q ∈ ps, ∀ a ∈ p.1, ∀ b ∈ q.1, |a - b| < tol → a = b
  past : ∀ p ∈ ps, ∀ q ∈ ps, ∀ a ∈ p.1.take p.2, ∀ c ∈ q.1.drop q.2, a < c

theorem heads_mem {ps : List (List ℝ × Nat)} {v : ℝ} (h : v ∈ heads ps) : ∃ p ∈ ps, p.1[p.2]? = some v := by
  obtain ⟨p, hp, hv⟩ := List.mem_filterMap.1 h
  exact ⟨p, hp, hv⟩

theorem mem_drop_of {b : List ℝ} {i : Nat} {v : ℝ} (h : b[i]? = some v) : v ∈ b.drop i := by
  rw [drop_head h]; simp

theorem energyLoop_ok {tol : ℝ} (htol : 0 < tol) (bins : List (List ℝ)) : ∀ (n : Nat) (idx : List Nat),
    bins.length = idx.length → left (bins.zip idx) < n → Inv tol (bins.zip idx) →
    ∃ rows, energyLoop tol bins n idx = .ok rows ∧ (rows.map Prod.fst).Pairwise (· < ·) ∧
      (∀ e, e ∈ rows.map Prod.fst ↔ ∃ p ∈ bins.zip idx, e ∈ p.1.drop p.2) ∧
      ∀ r ∈ rows, r.2 = bins.map (binAt · r.1) := by
  intro n
  induction n with
  | zero => intro idx _ h; omega
  | succ n ih =>
    intro idx hlen hn hI
    have hrange : ∀ v ∈ heads (bins.zip idx), v < 1e32 := by
      intro v hv
      obtain ⟨p, hp, h⟩ := heads_mem hv
      exact (hI.range p hp v (List.mem_of_getElem? h)).2
    have hl := lowest_spec (bins.zip idx) none hrange (by simp)
    unfold energyLoop
    cases hlow : lowest (bins.zip idx) none with
    | none =>
      rw [hlow] at hl
      refine ⟨[], rfl, by simp, fun e => ?_, by simp⟩
      simp only [List.map_nil, List.not_mem_nil, false_iff]
      rintro ⟨p, hp, he⟩
      cases hc : p.1[p.2]? with
      | none =>
        rw [List.drop_eq_nil_of_le (List.getElem?_eq_none_iff.1 hc)] at he
        cases he
      | some v =>
        have : v ∈ heads (bins.zip idx) := List.mem_filterMap.2 ⟨p, hp, hc⟩
        rw [hl.2] at this
        cases this
    | some low =>
      rw [hlow] at hl
      obtain ⟨h1, _, h3⟩ := hl
      have hmem : low ∈ heads (bins.zip idx) := by
        rcases h1 with h1 | h1
        · exact h1
        · cases h1
      obtain ⟨p0, hp0, hv0⟩ := heads_mem hmem
      have hd0 : low ∈ p0.1.drop p0.2 := mem_drop_of hv0
      have hb0 : low ∈ p0.1 := List.mem_of_getElem? hv0
      have hpos : 0 < low := (hI.range p0 hp0 low hb0).1
      have hdrop : ∀ p ∈ bins.zip idx, ∀ c ∈ p.1.drop p.2, low ≤ c := by
        intro p hp c hc
        cases hh : p.1[p.2]? with
        | none =>
          rw [List.drop_eq_nil_of_le (List.getElem?_eq_none_iff.1 hh)] at hc
          cases hc
        | some v =>
          have hv : low ≤ v := h3 v (List.mem_filterMap.2 ⟨p, hp, hh⟩)
          have hs' : (v :: p.1.drop (p.2 + 1)).Pairwise (· < ·) := by
            rw [← drop_head hh]; exact (hI.sorted p hp).sublist (List.drop_sublist _ _)
          rw [drop_head hh] at hc
          rcases List.mem_cons.1 hc with rfl | hc
          · exact hv
          · exact hv.trans ((List.pairwise_cons.1 hs').1 c hc).le
      have hadv : ∀ p ∈ bins.zip idx, _ := fun p hp =>
        advance_ok htol (hI.sorted p hp) (hI.idx p hp) (fun a ha => hI.past p hp p0 hp0 a ha low hd0)
          (hdrop p hp) (fun c hc => hI.apart p0 hp0 p hp low hb0 c hc)
      simp only
      rw [if_neg (not_lt.2 hpos.le)]
      have hz : bins.zip (((bins.zip idx).map fun p => advance tol low p.1 p.2).map Prod.snd) =
          (bins.zip idx).map fun p => (p.1, (advance tol low p.1 p.2).2) := by
        rw [List.map_map]
        exact zip_next _ bins idx hlen
      have hmeas : left ((bins.zip idx).map fun p => (p.1, (advance tol low p.1 p.2).2)) < left (bins.zip idx) :=
        left_lt _ _ (fun p hp => (hadv p hp).2.2.2.2.2.1) ⟨p0, hp0, (hadv p0 hp0).2.2.2.2.2.2 hd0⟩
      obtain ⟨rows, g1, g2, g3, g4⟩ := ih (((bins.zip idx).map fun p => advance tol low p.1 p.2).map Prod.snd)
        (by simp [hlen]) (by rw [hz]; omega) (by
          rw [hz]
          refine ⟨?_, ?_, ?_, ?_, ?_⟩
          · intro q hq
            obtain ⟨p, hp, rfl⟩ := List.mem_map.1 hq
            exact hI.sorted p hp
          · intro q hq
            obtain ⟨p, hp, rfl⟩ := List.mem_map.1 hq
            exact hI.range p hp
          · intro q hq
            obtain ⟨p, hp, rfl⟩ := List.mem_map.1 hq
            exact (hadv p hp).2.1
          · intro q hq q' hq'
            obtain ⟨p, hp, rfl⟩ := List.mem_map.1 hq
            obtain ⟨p', hp', rfl⟩ := List.mem_map.1 hq'
            exact hI.apart p hp p' hp'
          · intro q hq q' hq' a ha c hc
            obtain ⟨p, hp, rfl⟩ := List.mem_map.1 hq
            obtain ⟨p', hp', rfl⟩ := List.mem_map.1 hq'
            exact lt_of_le_of_lt ((hadv p hp).2.2.1 a ha) ((hadv p' hp').2.2.2.1 c hc).2)
      rw [g1, Res.bind_ok, if_pos hpos]
      rw [hz] at g3
      have hgt : ∀ e ∈ rows.map Prod.fst, low < e := by
        intro e he
        obtain ⟨q, hq, hc⟩ := (g3 e).1 he
        obtain ⟨p, hp, rfl⟩ := List.mem_map.1 hq
        exact ((hadv p hp).2.2.2.1 e hc).2
      refine ⟨_, rfl, ?_, fun e => ?_, fun r hr => ?_⟩
      · rw [List.map_cons, List.pairwise_cons]
        exact ⟨hgt, g2⟩
      · rw [List.map_cons, List.mem_cons, g3]
        constructor
        · rintro (rfl | ⟨q, hq, hc⟩)
          · exact ⟨p0, hp0, hd0⟩
          · obtain ⟨p, hp, rfl⟩ := List.mem_map.1 hq
            exact ⟨p, hp, ((hadv p hp).2.2.2.1 e hc).1⟩
        · rintro ⟨p, hp, hc⟩
          rcases (hadv p hp).2.2.2.2.1 e hc with h | h
          · exact Or.inl h
          · exact Or.inr ⟨_, List.mem_map.2 ⟨p, hp, rfl⟩, h⟩
      · rcases List.mem_cons.1 hr with rfl | hr
        · simp only
          rw [List.map_map]
          have : (bins.zip idx).map (Prod.fst ∘ fun p => advance tol low p.1 p.2) =
              (bins.zip idx).map ((fun b => binAt b low) ∘ Prod.fst) :=
            List.map_congr_left (fun p hp => (hadv p hp).1)
          rw [this, ← List.map_map, List.map_fst_zip (by omega)]
        · exact g4 r hr

/-! ### The layers -/

theorem layerAt_not {e : ℝ} : ∀ {es : List ℝ} {ls : List (List ℝ)}, e ∉ es → layerAt e es ls = []
  | [], _, _ => by unfold layerAt; rfl
  | _ :: _, [], _ => by unfold layerAt; rfl
  | a :: es, l :: ls, h => by
    unfold layerAt
    simp only [List.mem_cons, not_or] at h
    rw [if_neg (fun q => h.1 q.symm)]
    exact layerAt_not h.2

theorem layerAt_get {e : ℝ} : ∀ {es : List ℝ} {ls : List (List ℝ)} {k : Nat}, es.Pairwise (· < ·) → es[k]? = some e →
    layerAt e es ls = (ls[k]?).getD []
  | [], _, _, _, h => by simp at h
  | a :: es, [], k, _, _ => by unfold layerAt; simp
  | a :: es, l :: ls, 0, _, h => by
    unfold layerAt
    simp at h
    rw [if_pos h]
    simp
  | a :: es, l :: ls, k + 1, hs, h => by
    unfold layerAt
    rw [List.getElem?_cons_succ] at h
    rw [List.pairwise_cons] at hs
    rw [if_neg (ne_of_lt (hs.1 e (List.mem_of_getElem? h))), layerAt_get hs.2 h, List.getElem?_cons_succ]

theorem binAt_layer {c : Layers} (hg : Good c) (e : ℝ) :
    (binAt c.edges e < 0 → layerAt e c.edges c.layers = []) ∧
    (¬ binAt c.edges e < 0 → c.layers[(binAt c.edges e).toNat]? = some (layerAt e c.edges c.layers)) := by
  by_cases he : e ∈ c.edges
  · obtain ⟨k, hk, hv⟩ := List.getElem_of_mem he
    have hv' : c.edges[k]? = some e := by rw [List.getElem?_eq_getElem hk, hv]
    rw [binAt_some hg.sorted hv', layerAt_get hg.sorted hv']
    have hc := hg.count
    by_cases h : k + 1 < c.edges.length
    · rw [if_pos h]
      refine ⟨fun h' => by omega, fun _ => ?_⟩
      rw [Int.toNat_natCast, List.getElem?_eq_getElem (by omega)]
      rfl
    · rw [if_neg h]
      refine ⟨fun _ => ?_, fun h' => by omega⟩
      rw [List.getElem?_eq_none (by omega)]
      rfl
  · rw [binAt_none he]
    exact ⟨fun _ => layerAt_not he, fun h => by omega⟩

theorem flatten_layer {n : Nat} : ∀ {ls : List (List ℝ)} {k : Nat} {l : List ℝ}, (∀ l ∈ ls, l.length = n) →
    ls[k]? = some l → (ls.flatten.drop (k * n)).take n = l ∧ k * n + n ≤ ls.flatten.length
  | [], k, l, _, h => by simp at h
  | a :: ls, 0, l, hs, h => by
    simp at h
    subst h
    have := hs a (by simp)
    subst this
    simp
  | a :: ls, k + 1, l, hs, h => by
    rw [List.getElem?_cons_succ] at h
    have ha := hs a (by simp)
    obtain ⟨h1, h2⟩ := flatten_layer (fun l hl => hs l (by simp [hl])) h
    rw [List.flatten_cons, List.drop_append, List.length_append]
    rw [List.drop_eq_nil_of_le (by rw [ha]; nlinarith), List.nil_append, ha,
      show (k + 1) * n - n = k * n by rw [Nat.add_mul, Nat.one_mul, Nat.add_sub_cancel]]
    exact ⟨h1, by rw [Nat.add_mul, Nat.one_mul]; omega⟩

/-- One component of one energy. -/
theorem mergeCell_ok {c : Layers} (hg : Good c) (e : ℝ) (done rest : List ℝ)
    (hr : (layerAt e c.edges c.layers).length ≤ rest.length) :
    mergeCell c.comp (binAt c.edges e) (done ++ rest, done.length) =
      .ok (done ++ layerAt e c.edges c.layers ++ rest.drop (layerAt e c.edges c.layers).length,
        (done ++ layerAt e c.edges c.layers).length) := by
  obtain ⟨h1, h2⟩ := binAt_layer hg e
  unfold mergeCell Layers.comp
  by_cases h : binAt c.edges e < 0
  · rw [if_pos h, h1 h]
    simp
  · rw [if_neg h]
    obtain ⟨g1, g2⟩ := flatten_layer hg.sizes (h2 h)
    have hl : (layerAt e c.edges c.layers).length = c.npix := hg.sizes _ (List.mem_of_getElem? (h2 h))
    simp only
    rw [if_pos ⟨g2, by rw [List.length_append]; omega⟩, g1, hl]
    simp [hl, List.drop_append]

theorem mergeRow_ok (e : ℝ) : ∀ (cs : List Layers) (done rest : List ℝ), (∀ c ∈ cs, Good c) →
    (allAt cs e).length ≤ rest.length →
    mergeRow (cs.map Layers.comp) (cs.map fun c => binAt c.edges e) (done ++ rest, done.length) =
      .ok (done ++ allAt cs e ++ rest.drop (allAt cs e).length, (done ++ allAt cs e).length)
  | [], done, rest, _, _ => by simp [mergeRow, allAt]
  | c :: cs, done, rest, hg, hr => by
    have hall : allAt (c :: cs) e = layerAt e c.edges c.layers ++ allAt cs e := by simp [allAt]
    rw [hall, List.length_append] at hr
    rw [List.map_cons, List.map_cons]
    unfold mergeRow
    rw [mergeCell_ok (hg c (by simp)) e done rest (by omega), Res.bind_ok,
      mergeRow_ok e cs _ _ (fun c hc => hg c (by simp [hc])) (by rw [List.length_drop]; omega), hall]
    simp [List.append_assoc, List.drop_drop]

theorem mergeRows_ok (cs : List Layers) (hg : ∀ c ∈ cs, Good c) : ∀ (es : List ℝ) (done rest : List ℝ),
    (es.flatMap (allAt cs)).length ≤ rest.length →
    mergeRows (cs.map Layers.comp) (es.map fun e => cs.map fun c => binAt c.edges e) (done ++ rest, done.length) =
      .ok (done ++ es.flatMap (allAt cs) ++ rest.drop (es.flatMap (allAt cs)).length,
        (done ++ es.flatMap (allAt cs)).length)
  | [], done, rest, _ => by simp [mergeRows]
  | e :: es, done, rest, hr => by
    rw [List.flatMap_cons, List.length_append] at hr
    rw [List.map_cons]
    unfold mergeRows
    rw [mergeRow_ok e cs done rest hg (by omega), Res.bind_ok,
      mergeRows_ok cs hg es _ _ (by rw [List.length_drop]; omega), List.flatMap_cons]
    simp [List.append_assoc, List.drop_drop]

/-- Every layer of a component once, in order. -/
theorem comp_flat : ∀ {E es : List ℝ} {ls : List (List ℝ)}, E.Pairwise (· < ·) → es.Pairwise (· < ·) →
    (∀ a ∈ es, a ∈ E) → es.length = ls.length + 1 → E.flatMap (fun e => layerAt e es ls) = ls.flatten
  | [], es, ls, _, _, hsub, hl => by
    cases es with
    | nil => simp at hl
    | cons a as => exact absurd (hsub a (by simp)) (by simp)
  | x :: E, es, ls, hE, hs, hsub, hl => by
    cases es with
    | nil => simp at hl
    | cons a as =>
      rw [List.pairwise_cons] at hE
      have hs' := List.pairwise_cons.1 hs
      rw [List.flatMap_cons]
      by_cases hax : a = x
      · subst hax
        cases ls with
        | nil =>
          have : ∀ e, layerAt e (a :: as) [] = [] := fun e => by unfold layerAt; rfl
          simp [this]
        | cons l ls =>
          have h1 : layerAt a (a :: as) (l :: ls) = l := by unfold layerAt; rw [if_pos rfl]
          have h2 : E.flatMap (fun e => layerAt e (a :: as) (l :: ls)) = E.flatMap (fun e => layerAt e as ls) := by
            apply List.flatMap_congr
            intro e he
            conv_lhs => unfold layerAt
            rw [if_neg (ne_of_lt (hE.1 e he))]
          rw [h1, h2, comp_flat hE.2 hs'.2 (fun b hb => ?_) (by simpa using hl), List.flatten_cons]
          rcases List.mem_cons.1 (hsub b (by simp [hb])) with rfl | h
          · exact absurd (hs'.1 b hb) (lt_irrefl _)
          · exact h
      · have haE : a ∈ E := by
          rcases List.mem_cons.1 (hsub a (by simp)) with h | h
          · exact absurd h hax
          · exact h
        have hxa : x < a := hE.1 a haE
        have hall : ∀ b ∈ a :: as, x < b := by
          intro b hb
          rcases List.mem_cons.1 hb with rfl | hb
          · exact hxa
          · exact hxa.trans (hs'.1 b hb)
        rw [layerAt_not (fun h => lt_irrefl _ (hall x h)), List.nil_append]
        exact comp_flat hE.2 hs (fun b hb => by
          rcases List.mem_cons.1 (hsub b hb) with rfl | h
          · exact absurd (hall b hb) (lt_irrefl _)
          · exact h) hl

theorem exchange_length {α β γ : Type} (f : α → β → List γ) (E : List α) : ∀ cs : List β,
    (E.flatMap fun e => cs.flatMap (f e)).length = (cs.map fun c => (E.flatMap fun e => f e c).length).sum
  | [] => by simp
  | c :: cs => by
    rw [List.map_cons, List.sum_cons, ← exchange_length f E cs]
    induction E with
    | nil => simp
    | cons x E ih =>
      simp only [List.flatMap_cons, List.length_append] at ih ⊢
      omega

theorem flatten_length {n : Nat} : ∀ {ls : List (List ℝ)}, (∀ l ∈ ls, l.length = n) → ls.flatten.length = n * ls.length
  | [], _ => by simp
  | l :: ls, h => by
    rw [List.flatten_cons, List.length_append, flatten_length (fun l hl => h l (by simp [hl])), h l (by simp),
      List.length_cons, Nat.mul_add, Nat.mul_one, Nat.add_comm]

/-- Nothing begins at the highest energy. -/
theorem layerAt_last {c : Layers} (hg : Good c) {E : List ℝ} {x : ℝ} (hE : (E ++ [x]).Pairwise (· < ·))
    (hsub : ∀ a ∈ c.edges, a ∈ E ++ [x]) : layerAt x c.edges c.layers = [] := by
  by_cases hx : x ∈ c.edges
  · obtain ⟨k, hk, hv⟩ := List.getElem_of_mem hx
    have hv' : c.edges[k]? = some x := by rw [List.getElem?_eq_getElem hk, hv]
    rw [layerAt_get hg.sorted hv']
    by_cases h : k + 1 < c.edges.length
    · have h1 := List.pairwise_iff_getElem.1 hg.sorted k (k + 1) hk h (by omega)
      have h2 : c.edges[k + 1] ∈ E ++ [x] := hsub _ (List.getElem_mem h)
      rw [hv] at h1
      rw [List.pairwise_append] at hE
      rcases List.mem_append.1 h2 with h3 | h3
      · exact absurd (hE.2.2 _ h3 x (by simp)) (not_lt.2 h1.le)
      · simp at h3
        exact absurd h3 (ne_of_gt h1)
    · rw [List.getElem?_eq_none (by have := hg.count; omega)]
      rfl
  · exact layerAt_not hx

theorem layerPixels_ok (e : ℝ) : ∀ (cs : List Layers), (∀ c ∈ cs, Good c) →
    layerPixels (cs.map Layers.comp) (cs.map fun c => binAt c.edges e) = (allAt cs e).length
  | [], _ => by simp [layerPixels, allAt]
  | c :: cs, hg => by
    have ih := layerPixels_ok e cs (fun c hc => hg c (by simp [hc]))
    unfold layerPixels at ih ⊢
    have hall : allAt (c :: cs) e = layerAt e c.edges c.layers ++ allAt cs e := by simp [allAt]
    rw [List.map_cons, List.map_cons, List.zip_cons_cons, List.map_cons, List.sum_cons, ih, hall, List.length_append]
    congr 1
    obtain ⟨h1, h2⟩ := binAt_layer (hg c (by simp)) e
    simp only
    by_cases h : binAt c.edges e < 0
    · rw [if_pos h, h1 h]; rfl
    · rw [if_neg h]
      exact ((hg c (by simp)).sizes _ (List.mem_of_getElem? (h2 h))).symm

end Verif.FitMerge
