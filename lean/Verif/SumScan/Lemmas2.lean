import Verif.SumScan.Lemmas
import Verif.FitUtils.Props
import Verif.Files.Props2

set_option linter.unusedSimpArgs false
set_option linter.unusedVariables false
set_option linter.unusedSectionVars false

/-!
# Lemmas about scans of a sum of likelihoods: the vectors put together
-/

namespace Verif.SumScan

open FitMerge (Merged binAt)
open FitMerge.Spec (Layers layerAt allAt)

variable {N : Type}

/-- The number at a place, for vectors that the components have. -/
def numAt (ps : List (Part N)) (g : Part N → List ℝ) (q : Nat × Nat) : ℝ :=
  Spec.at' ((ps.map g)[q.1]?.getD []) q.2

theorem numAt_eq {ps : List (Part N)} {g : Part N → List ℝ} {c i : Nat} {p : Part N}
    (h : ps[c]? = some p) : numAt ps g (c, i) = Spec.at' (g p) i := by
  unfold numAt
  simp [h]

theorem all_order (e : ℝ) (g : Part N → List ℝ) (f : Nat → List ℝ) : ∀ (ps : List (Part N)) (s : Nat),
    (∀ j p, ps[j]? = some p → f (s + j) = g p) →
    allAt (ps.map fun p => lay p (g p)) e =
      ((ps.zipIdx s).flatMap fun pc => layerP e pc.1.edges
        (chunk pc.1.npix (pc.1.edges.length - 1) fun i => (pc.2, i))).map
        (fun q => Spec.at' (f q.1) q.2)
  | [], s, h => by simp [allAt]
  | p :: ps, s, h => by
    have ih := all_order e g f ps (s + 1) (by
      intro j q hq
      rw [← h (j + 1) q (by simpa using hq)]
      congr 1
      omega)
    unfold allAt at ih ⊢
    rw [List.map_cons, List.flatMap_cons, ih, List.zipIdx_cons, List.flatMap_cons, List.map_append]
    congr 1
    rw [← layerP_map, chunk_map, ← layerP_eq]
    simp only [lay]
    have h0 := h 0 p (by simp)
    rw [Nat.add_zero] at h0
    rw [h0]

theorem flat_order (E : List ℝ) (ps : List (Part N)) (g : Part N → List ℝ) :
    E.flatMap (allAt (ps.map fun p => lay p (g p))) = (order E ps).map (numAt ps g) := by
  unfold order
  rw [List.map_flatMap]
  apply List.flatMap_congr
  intro e _
  rw [all_order e g (fun c => (ps.map g)[c]?.getD []) ps 0 (by
    intro j p hp
    simp [hp])]
  rfl

theorem lay_map {ps : List (Part N)} (g : Part N → List ℝ)
    (hl : ∀ p ∈ ps, (g p).length = p.npix * (p.edges.length - 1)) :
    (ps.map fun p => lay p (g p)).map Layers.comp = ps.map fun p => asComp p (g p) := by
  rw [List.map_map]
  apply List.map_congr_left
  intro p hp
  exact lay_comp _ (hl p hp)

theorem zip_map (ps : List (Part N)) (g : Part N → List ℝ) :
    List.zipWith asComp ps (ps.map g) = ps.map fun p => asComp p (g p) := by
  induction ps with
  | nil => rfl
  | cons p ps ih => simp [ih]

/-- Putting vectors together. -/
theorem mergeAll_ok {E : List ℝ} {ps : List (Part N)} (hE : E.Pairwise (· < ·))
    (hg : ∀ p ∈ ps, Spec.Good p) (hsub : ∀ p ∈ ps, ∀ a ∈ p.edges, a ∈ E) (g : Part N → List ℝ)
    (hl : ∀ p ∈ ps, (g p).length = p.npix * (p.edges.length - 1)) :
    mergeAll ps (E.map fun e => ps.map fun p => binAt p.edges e)
      (ps.map fun p => p.npix * (p.edges.length - 1)).sum (ps.map g) =
      .ok ((order E ps).map (numAt ps g)) := by
  unfold mergeAll
  rw [if_neg (by simp), zip_map, ← lay_map g hl, ← flat_order]
  have h := FitMerge.merge_ok (cs := ps.map fun p => lay p (g p)) (by
    intro c hc
    obtain ⟨p, hp, rfl⟩ := List.mem_map.1 hc
    exact lay_good (hg p hp) _) hE (by
    intro c hc
    obtain ⟨p, hp, rfl⟩ := List.mem_map.1 hc
    exact hsub p hp)
  simp only [List.map_map] at h ⊢
  exact h

theorem push_ok (n : Nat) (cols : Nat → List (List ℝ)) (ts : List (List ℝ)) (h : ts.length = n) :
    push ((List.range n).map cols) ts =
      .ok ((List.range n).map fun j => cols j ++ [ts[j]?.getD []]) := by
  induction n generalizing cols ts with
  | zero =>
    rw [List.length_eq_zero_iff] at h
    subst h
    rfl
  | succ n ih =>
    cases ts with
    | nil => simp at h
    | cons t ts =>
      rw [List.range_succ_eq_map, List.map_cons, List.map_map]
      unfold push
      have := ih (cols ∘ Nat.succ) ts (by simpa using h)
      rw [this, Res.bind_ok]
      simp [Function.comp_def]

theorem pushAll_ok (n : Nat) : ∀ (ps : List (Part N)) (cols : Nat → List (List ℝ)),
    (∀ p ∈ ps, p.templates.length = n) →
    pushAll ps ((List.range n).map cols) =
      .ok ((List.range n).map fun j => cols j ++ ps.map fun p => p.templates[j]?.getD [])
  | [], cols, _ => by simp [pushAll]
  | p :: ps, cols, h => by
    unfold pushAll
    rw [push_ok n cols p.templates (h p (by simp)), Res.bind_ok,
      pushAll_ok n ps _ (fun q hq => h q (by simp [hq]))]
    simp

/-- Components with different numbers of sources. -/
theorem push_bad : ∀ (cols : List (List (List ℝ))) (ts : List (List ℝ)),
    cols.length < ts.length → push cols ts = .ub
  | cols, [], h => by simp at h
  | [], _ :: _, _ => rfl
  | c :: cols, t :: ts, h => by
    unfold push
    rw [push_bad cols ts (by simpa using h)]
    rfl

theorem mapM_ok' {α β : Type} (f : α → Res β) (g : α → β) : ∀ (l : List α), (∀ a ∈ l, f a = .ok (g a)) →
    l.mapM f = .ok (l.map g)
  | [], _ => by simp
  | a :: l, h => by
    rw [List.mapM_cons, h a (by simp), Res.bind_ok, mapM_ok' f g l (fun b hb => h b (by simp [hb])),
      Res.bind_ok]
    rfl

theorem refPars_ok (n : Nat) (p : Part N) : ∀ (ps : List (Part N)), p.refs.length = n →
    (∀ q ∈ ps, q.refs.length = n) → refPars p ps = p.refs := by
  intro ps hp
  unfold refPars
  induction ps with
  | nil => intro _; rfl
  | cons q ps ih =>
    intro h
    rw [List.foldl_cons]
    have hq := h q (by simp)
    have : p.refs.take q.refs.length ++ List.replicate (q.refs.length - p.refs.length) 0 = p.refs := by
      rw [hq, ← hp]
      simp
    rw [this]
    exact ih (fun q hq => h q (by simp [hq]))

/-- The constructor. -/
theorem new_parts {ps : List (Part N)} (hne : ps ≠ []) (hg : ∀ p ∈ ps, Spec.Good p) (ha : Spec.Apart ps) :
    ∃ (E : List ℝ) (m : Merged), E.Pairwise (· < ·) ∧ (∀ p ∈ ps, ∀ a ∈ p.edges, a ∈ E) ∧
      FitMerge.new (ps.map fun p => asComp p p.data) = .ok m ∧
      m.rows = (E.map fun e => ps.map fun p => binAt p.edges e) ∧
      m.data = (order E ps).map (numAt ps Part.data) ∧
      m.data.length = (ps.map fun p => p.npix * (p.edges.length - 1)).sum := by
  have hne' : (ps.map fun p => lay p p.data) ≠ [] := by simpa using hne
  obtain ⟨E, -, hE, hmem, hnew⟩ := FitMerge.new_ok hne' (by
    intro c hc
    obtain ⟨p, hp, rfl⟩ := List.mem_map.1 hc
    exact lay_good (hg p hp) _) (by
    intro c hc c' hc' a hca b hcb hab
    obtain ⟨p, hp, rfl⟩ := List.mem_map.1 hc
    obtain ⟨q, hq, rfl⟩ := List.mem_map.1 hc'
    exact ha p hp q hq a hca b hcb hab)
  have hsub : ∀ p ∈ ps, ∀ a ∈ p.edges, a ∈ E := fun p hp a h =>
    (hmem a).2 ⟨lay p p.data, List.mem_map_of_mem hp, h⟩
  rw [lay_map Part.data (fun p hp => (hg p hp).data), flat_order] at hnew
  have hlen : (order E ps).length = (ps.map fun p => p.npix * (p.edges.length - 1)).sum := by
    have h1 := FitMerge.total_length (cs := ps.map fun p => lay p p.data) (by
      intro c hc
      obtain ⟨p, hp, rfl⟩ := List.mem_map.1 hc
      exact lay_good (hg p hp) _) hE (by
      intro c hc
      obtain ⟨p, hp, rfl⟩ := List.mem_map.1 hc
      exact hsub p hp)
    rw [flat_order] at h1
    simp only [List.length_map, List.map_map] at h1
    exact h1
  refine ⟨E, _, hE, hsub, hnew, ?_, rfl, ?_⟩
  · simp only [List.map_map]
    rfl
  · simp only [List.length_map]
    exact hlen

/-- The counts and models of a sum. -/
theorem setup_ok (uw : Bool) (p0 : Part N) (qs : List (Part N))
    (hg : ∀ p ∈ p0 :: qs, Spec.Good p) (ha : Spec.Apart (p0 :: qs))
    (hn : ∀ p ∈ qs, p.templates.length = p0.templates.length) :
    ∃ (ord : List (Nat × Nat)) (m : Merged) (x : Scan N), ord.Perm (places (p0 :: qs)) ∧
      setup uw (p0 :: qs) = .ok (m, x) ∧ m.data = ord.map (numAt (p0 :: qs) Part.data) ∧
      x.names = p0.names ∧ x.refs = p0.refs ∧
      x.templates = (List.range p0.templates.length).map (fun j =>
        ord.map (numAt (p0 :: qs) fun p => p.templates[j]?.getD [])) ∧
      x.fixed = ord.map (numAt (p0 :: qs) Part.fixed) ∧
      x.test = ord.map (numAt (p0 :: qs) Part.test) ∧
      x.weights = if uw then some (ord.map (numAt (p0 :: qs) Part.weights)) else none := by
  have hn' : ∀ p ∈ p0 :: qs, p.templates.length = p0.templates.length := by
    intro p hp
    rcases List.mem_cons.1 hp with rfl | hp
    · rfl
    · exact hn p hp
  obtain ⟨E, m, hE, hsub, hnew, hrows, hdata, hlen⟩ := new_parts (by simp) hg ha
  have hmerge := mergeAll_ok hE hg hsub
  have hd := fun p hp => (hg p hp).data
  have hcols := pushAll_ok p0.templates.length (p0 :: qs) (fun _ => []) hn'
  simp only [List.nil_append, List.map_const', List.length_range] at hcols
  have htmpl : (((List.range p0.templates.length).map fun j =>
      (p0 :: qs).map fun p => p.templates[j]?.getD []).mapM
      (mergeAll (p0 :: qs) (E.map fun e => (p0 :: qs).map fun p => binAt p.edges e)
        ((p0 :: qs).map fun p => p.npix * (p.edges.length - 1)).sum)) =
      .ok ((List.range p0.templates.length).map (fun j =>
        (order E (p0 :: qs)).map (numAt (p0 :: qs) fun p => p.templates[j]?.getD []))) := by
    rw [List.mapM_map, mapM_ok' _ (fun j =>
      (order E (p0 :: qs)).map (numAt (p0 :: qs) fun p => p.templates[j]?.getD []))]
    intro j hj
    rw [List.mem_range] at hj
    refine hmerge (fun p => p.templates[j]?.getD []) ?_
    intro p hp
    have : j < p.templates.length := by rw [hn' p hp]; exact hj
    rw [List.getElem?_eq_getElem this, Option.getD_some,
      (hg p hp).templates _ (List.getElem_mem this), hd p hp]
  have hfix := hmerge Part.fixed (fun p hp => by rw [(hg p hp).fixed, hd p hp])
  have htest := hmerge Part.test (fun p hp => by rw [(hg p hp).test, hd p hp])
  have hw := hmerge Part.weights (fun p hp => by rw [(hg p hp).weights, hd p hp])
  have hws : mergeWeights uw (p0 :: qs) (E.map fun e => (p0 :: qs).map fun p => binAt p.edges e)
      ((p0 :: qs).map fun p => p.npix * (p.edges.length - 1)).sum =
      .ok (if uw then some ((order E (p0 :: qs)).map (numAt (p0 :: qs) Part.weights)) else none) := by
    unfold mergeWeights
    cases uw
    · simp
    · rw [hw]; simp
  have href : refPars p0 qs = p0.refs := by
    refine refPars_ok p0.templates.length p0 qs (hg p0 (by simp)).refs ?_
    intro q hq
    rw [(hg q (by simp [hq])).refs, hn q hq]
  have hx : extractModels uw (p0 :: qs) m.rows m.data.length =
      .ok ⟨p0.names, (List.range p0.templates.length).map (fun j =>
      (order E (p0 :: qs)).map (numAt (p0 :: qs) fun p => p.templates[j]?.getD [])), p0.refs,
      (order E (p0 :: qs)).map (numAt (p0 :: qs) Part.fixed),
      (order E (p0 :: qs)).map (numAt (p0 :: qs) Part.test),
      if uw then some ((order E (p0 :: qs)).map (numAt (p0 :: qs) Part.weights)) else none⟩ := by
    rw [hrows, hlen]
    unfold extractModels
    simp only
    rw [hcols, Res.bind_ok, hfix, Res.bind_ok, htest, Res.bind_ok, hws, Res.bind_ok, htmpl, Res.bind_ok, href]
  generalize hX : (⟨p0.names, (List.range p0.templates.length).map (fun j =>
      (order E (p0 :: qs)).map (numAt (p0 :: qs) fun p => p.templates[j]?.getD [])), p0.refs,
      (order E (p0 :: qs)).map (numAt (p0 :: qs) Part.fixed),
      (order E (p0 :: qs)).map (numAt (p0 :: qs) Part.test),
      if uw then some ((order E (p0 :: qs)).map (numAt (p0 :: qs) Part.weights)) else none⟩ : Scan N) = x
    at hx
  refine ⟨order E (p0 :: qs), m, x, order_perm hE hg hsub, ?_, hdata, by rw [← hX], by rw [← hX],
    by rw [← hX], by rw [← hX], by rw [← hX], by rw [← hX]⟩
  unfold setup
  rw [hnew, Res.bind_ok, hx, Res.bind_ok]

theorem push_some (n : Nat) (cols : Nat → List (List ℝ)) (ts : List (List ℝ)) (h : ts.length ≤ n) :
    push ((List.range n).map cols) ts =
      .ok ((List.range n).map fun j => cols j ++ ts[j]?.toList) := by
  induction n generalizing cols ts with
  | zero =>
    have : ts = [] := List.length_eq_zero_iff.1 (by omega)
    subst this
    rfl
  | succ n ih =>
    cases ts with
    | nil => simp [push]
    | cons t ts =>
      rw [List.range_succ_eq_map, List.map_cons, List.map_map]
      unfold push
      have := ih (cols ∘ Nat.succ) ts (by simpa using h)
      rw [this, Res.bind_ok]
      simp [Function.comp_def]

theorem pushAll_some (n : Nat) : ∀ (ps : List (Part N)) (cols : Nat → List (List ℝ)),
    (∀ p ∈ ps, p.templates.length ≤ n) →
    pushAll ps ((List.range n).map cols) =
      .ok ((List.range n).map fun j => cols j ++ ps.filterMap fun p => p.templates[j]?)
  | [], cols, _ => by simp [pushAll]
  | p :: ps, cols, h => by
    unfold pushAll
    rw [push_some n cols p.templates (h p (by simp)), Res.bind_ok,
      pushAll_some n ps _ (fun q hq => h q (by simp [hq]))]
    congr 1
    apply List.map_congr_left
    intro j _
    cases hp : p.templates[j]? <;> simp [hp]

theorem pushAll_more (n : Nat) : ∀ (ps : List (Part N)) (cols : Nat → List (List ℝ)),
    (∃ p ∈ ps, n < p.templates.length) → pushAll ps ((List.range n).map cols) = .ub
  | [], cols, h => by simp at h
  | p :: ps, cols, h => by
    unfold pushAll
    by_cases hp : p.templates.length ≤ n
    · rw [push_some n cols p.templates hp, Res.bind_ok]
      refine pushAll_more n ps _ ?_
      obtain ⟨q, hq, h⟩ := h
      rcases List.mem_cons.1 hq with rfl | hq
      · omega
      · exact ⟨q, hq, h⟩
    · rw [push_bad _ _ (by simp; omega)]
      rfl

theorem short_bad {ps : List (Part N)} {rows : List (List Int)} {size j : Nat}
    (h : ∃ p ∈ ps, p.templates.length ≤ j) :
    mergeAll ps rows size (ps.filterMap fun p => p.templates[j]?) = .ub := by
  have hlt : (ps.filterMap fun p => p.templates[j]?).length < ps.length := by
    rw [List.length_filterMap_eq_countP]
    refine lt_of_le_of_ne List.countP_le_length ?_
    intro he
    rw [List.countP_eq_length] at he
    obtain ⟨p, hp, hj⟩ := h
    have := he p hp
    rw [List.getElem?_eq_none hj] at this
    simp at this
  unfold mergeAll
  rw [if_pos hlt]

/-- Components with different numbers of free sources. -/
theorem setup_bad (uw : Bool) (p0 : Part N) (qs : List (Part N))
    (hg : ∀ p ∈ p0 :: qs, Spec.Good p) (ha : Spec.Apart (p0 :: qs))
    (hn : ∃ p ∈ qs, p.templates.length ≠ p0.templates.length) :
    setup uw (p0 :: qs) = .ub := by
  obtain ⟨E, m, hE, hsub, hnew, hrows, hdata, hlen⟩ := new_parts (by simp) hg ha
  have hmerge := mergeAll_ok hE hg hsub
  have hd := fun p hp => (hg p hp).data
  have hrep : List.replicate p0.templates.length ([] : List (List ℝ)) =
      (List.range p0.templates.length).map fun _ => [] := by simp
  have hx : extractModels uw (p0 :: qs) m.rows m.data.length = .ub := by
    rw [hrows, hlen]
    unfold extractModels
    simp only
    rw [hrep]
    by_cases hle : ∀ p ∈ p0 :: qs, p.templates.length ≤ p0.templates.length
    · have hfix := hmerge Part.fixed (fun p hp => by rw [(hg p hp).fixed, hd p hp])
      have htest := hmerge Part.test (fun p hp => by rw [(hg p hp).test, hd p hp])
      have hw := hmerge Part.weights (fun p hp => by rw [(hg p hp).weights, hd p hp])
      have hws : ∃ w, mergeWeights uw (p0 :: qs) (E.map fun e => (p0 :: qs).map fun p => binAt p.edges e)
          ((p0 :: qs).map fun p => p.npix * (p.edges.length - 1)).sum = .ok w := by
        unfold mergeWeights
        cases uw
        · exact ⟨none, by simp⟩
        · rw [hw]; exact ⟨_, by simp; rfl⟩
      obtain ⟨w, hws⟩ := hws
      rw [pushAll_some _ _ _ hle, Res.bind_ok, hfix, Res.bind_ok, htest, Res.bind_ok, hws, Res.bind_ok]
      simp only [List.nil_append]
      rw [Files.mapM_ub]
      · rfl
      · intro v hv
        obtain ⟨j, hj, rfl⟩ := List.mem_map.1 hv
        rw [List.mem_range] at hj
        by_cases hall : ∀ p ∈ p0 :: qs, j < p.templates.length
        · left
          have e : ((p0 :: qs).filterMap fun p => p.templates[j]?) =
              (p0 :: qs).map fun p => p.templates[j]?.getD [] := by
            rw [← List.filterMap_eq_map]
            apply List.filterMap_congr
            intro p hp
            simp [List.getElem?_eq_getElem (hall p hp)]
          rw [e]
          refine ⟨_, hmerge (fun p => p.templates[j]?.getD []) ?_⟩
          intro p hp
          rw [List.getElem?_eq_getElem (hall p hp), Option.getD_some,
            (hg p hp).templates _ (List.getElem_mem _), hd p hp]
        · right
          push Not at hall
          exact short_bad hall
      · obtain ⟨p, hp, hpn⟩ := hn
        have hlt := hle p (by simp [hp])
        refine ⟨_, List.mem_map.2 ⟨p.templates.length, List.mem_range.2 (by omega), rfl⟩, ?_⟩
        exact short_bad ⟨p, by simp [hp], Nat.le_refl _⟩
    · push Not at hle
      rw [pushAll_more _ _ _ hle]
      rfl
  unfold setup
  rw [hnew, Res.bind_ok, hx]
  rfl

end Verif.SumScan
