import Verif.FitMerge.Lemmas
import Mathlib.Tactic.NormNum
/-
Putting several components together for a scan (src/FitScanner.cxx): C122.
-/
set_option linter.unusedSectionVars false
set_option linter.unusedSimpArgs false
set_option linter.unusedVariables false
namespace Verif.FitMerge
open Spec

theorem zip_zero (bins : List (List ℝ)) {p : List ℝ × Nat} (h : p ∈ bins.zip (bins.map fun _ => 0)) :
    p.1 ∈ bins ∧ p.2 = 0 := by
  induction bins with
  | nil => simp at h
  | cons b bs ih =>
    rw [List.map_cons, List.zip_cons_cons, List.mem_cons] at h
    rcases h with rfl | h
    · simp
    · exact ⟨List.mem_cons_of_mem _ (ih h).1, (ih h).2⟩

theorem zip_zero_mem (bins : List (List ℝ)) {b : List ℝ} (h : b ∈ bins) : (b, 0) ∈ bins.zip (bins.map fun _ => 0) := by
  induction bins with
  | nil => simp at h
  | cons c bs ih =>
    rw [List.map_cons, List.zip_cons_cons, List.mem_cons]
    rcases List.mem_cons.1 h with rfl | h
    · exact Or.inl rfl
    · exact Or.inr (ih h)

theorem left_zero (cs : List (List ℝ)) : left (cs.zip (cs.map fun _ => 0)) = (cs.map List.length).sum := by
  induction cs with
  | nil => simp [left]
  | cons c cs ih =>
    unfold left at ih ⊢
    simp only [List.map_cons, List.zip_cons_cons, List.sum_cons] at ih ⊢
    omega

/-- The energies. -/
theorem energies_ok {cs : List Layers} (hg : ∀ c ∈ cs, Good c) (ha : Apart 1e-5 cs) :
    ∃ E : List ℝ, E.Pairwise (· < ·) ∧ (∀ e, e ∈ E ↔ ∃ c ∈ cs, e ∈ c.edges) ∧
      energyLoop defaultTol ((cs.map Layers.comp).map Comp.edges)
        (((cs.map Layers.comp).map fun c => c.edges.length).sum + 1) ((cs.map Layers.comp).map fun _ => 0) =
      .ok (E.map fun e => (e, cs.map fun c => binAt c.edges e)) := by
  have hb : (cs.map Layers.comp).map Comp.edges = cs.map Layers.edges := by
    rw [List.map_map]; rfl
  have hs : ((cs.map Layers.comp).map fun c => c.edges.length) = (cs.map Layers.edges).map List.length := by
    rw [List.map_map, List.map_map]; rfl
  have hi : (cs.map Layers.comp).map (fun _ => 0) = (cs.map Layers.edges).map fun _ => 0 := by
    rw [List.map_map, List.map_map]; rfl
  rw [hb, hs, hi]
  have hmem : ∀ p ∈ (cs.map Layers.edges).zip ((cs.map Layers.edges).map fun _ => 0), ∃ c ∈ cs, p.1 = c.edges ∧ p.2 = 0 := by
    intro p hp
    obtain ⟨h1, h2⟩ := zip_zero _ hp
    obtain ⟨c, hc, he⟩ := List.mem_map.1 h1
    exact ⟨c, hc, he.symm, h2⟩
  obtain ⟨rows, h1, h2, h3, h4⟩ := energyLoop_ok (tol := defaultTol) (by unfold defaultTol; norm_num) (cs.map Layers.edges)
    (((cs.map Layers.edges).map List.length).sum + 1) ((cs.map Layers.edges).map fun _ => 0)
    (by simp) (by rw [left_zero]; omega)
    { sorted := fun p hp => by
        obtain ⟨c, hc, e, _⟩ := hmem p hp
        rw [e]; exact (hg c hc).sorted
      range := fun p hp e he => by
        obtain ⟨c, hc, e', _⟩ := hmem p hp
        rw [e'] at he; exact (hg c hc).positive e he
      idx := fun p hp => by
        obtain ⟨c, hc, _, e⟩ := hmem p hp
        rw [e]; exact Nat.zero_le _
      apart := fun p hp q hq a hpa b hqb hab => by
        obtain ⟨c, hc, e, _⟩ := hmem p hp
        obtain ⟨c', hc', e', _⟩ := hmem q hq
        rw [e] at hpa
        rw [e'] at hqb
        exact ha c hc c' hc' a hpa b hqb hab
      past := fun p hp q hq a hpa => by
        obtain ⟨c, hc, _, e⟩ := hmem p hp
        rw [e] at hpa; simp at hpa }
  refine ⟨rows.map Prod.fst, h2, fun e => ?_, ?_⟩
  · rw [h3 e]
    constructor
    · rintro ⟨p, hp, he⟩
      obtain ⟨c, hc, e1, e2⟩ := hmem p hp
      rw [e1, e2, List.drop_zero] at he
      exact ⟨c, hc, he⟩
    · rintro ⟨c, hc, he⟩
      exact ⟨(c.edges, 0), zip_zero_mem _ (List.mem_map_of_mem hc), by simpa using he⟩
  · rw [h1, List.map_map]
    congr 1
    conv_lhs => rw [← List.map_id rows]
    apply List.map_congr_left
    intro r hr
    have := h4 r hr
    simp only [id, Function.comp_apply]
    rw [List.map_map] at this
    exact Prod.ext rfl this

/-- The number of counts of a component. -/
theorem comp_size {c : Layers} (hg : Good c) : c.layers.flatten.length = c.npix * (c.edges.length - 1) := by
  rw [flatten_length hg.sizes, hg.count, Nat.add_sub_cancel]

theorem total_length {cs : List Layers} (hg : ∀ c ∈ cs, Good c) {E : List ℝ} (hE : E.Pairwise (· < ·))
    (hsub : ∀ c ∈ cs, ∀ a ∈ c.edges, a ∈ E) :
    (E.flatMap (allAt cs)).length = (cs.map fun c => c.npix * (c.edges.length - 1)).sum := by
  have := exchange_length (fun (e : ℝ) (c : Layers) => layerAt e c.edges c.layers) E cs
  unfold allAt
  rw [this]
  congr 1
  apply List.map_congr_left
  intro c hc
  rw [comp_flat hE (hg c hc).sorted (hsub c hc) (hg c hc).count, comp_size (hg c hc)]

/-- The vectors. -/
theorem merge_ok {cs : List Layers} (hg : ∀ c ∈ cs, Good c) {E : List ℝ} (hE : E.Pairwise (· < ·))
    (hsub : ∀ c ∈ cs, ∀ a ∈ c.edges, a ∈ E) :
    mergeVectors (cs.map Layers.comp) (E.map fun e => cs.map fun c => binAt c.edges e)
      (List.replicate ((cs.map fun c => c.npix * (c.edges.length - 1)).sum) 0) = .ok (E.flatMap (allAt cs)) := by
  have hd : E.flatMap (allAt cs) = E.dropLast.flatMap (allAt cs) := by
    rcases List.eq_nil_or_concat E with rfl | ⟨E', x, rfl⟩
    · simp
    · rw [List.concat_eq_append] at *
      rw [List.dropLast_concat, List.flatMap_append]
      have : allAt cs x = [] := by
        unfold allAt
        rw [List.flatMap_eq_nil_iff]
        exact fun c hc => layerAt_last (hg c hc) hE (hsub c hc)
      simp [this]
  have hl := total_length hg hE hsub
  unfold mergeVectors
  rw [← List.map_dropLast]
  have := mergeRows_ok cs hg E.dropLast [] (List.replicate ((cs.map fun c => c.npix * (c.edges.length - 1)).sum) 0)
    (by rw [← hd, hl, List.length_replicate])
  rw [List.nil_append, List.length_nil] at this
  rw [this, Res.bind_ok]
  simp only [List.nil_append]
  rw [← hd, hl, List.drop_eq_nil_of_le (by simp), List.append_nil]

theorem size_comp (cs : List Layers) : ((cs.map Layers.comp).map fun c => c.npix * (c.edges.length - 1)) =
    cs.map fun c => c.npix * (c.edges.length - 1) := by
  rw [List.map_map]; rfl

/-- The constructor in full. -/
theorem new_ok {cs : List Layers} (hne : cs ≠ []) (hg : ∀ c ∈ cs, Good c) (ha : Apart 1e-5 cs) :
    ∃ E : List ℝ, E ≠ [] ∧ E.Pairwise (· < ·) ∧ (∀ e, e ∈ E ↔ ∃ c ∈ cs, e ∈ c.edges) ∧
      new (cs.map Layers.comp) = .ok ⟨E, E.map fun e => cs.map fun c => binAt c.edges e,
        E.dropLast.map (fun e => (allAt cs e).length), E.length - 1, E.flatMap (allAt cs)⟩ := by
  obtain ⟨E, hE, hm, hr⟩ := energies_ok hg ha
  have hsub : ∀ c ∈ cs, ∀ a ∈ c.edges, a ∈ E := fun c hc a h => (hm a).2 ⟨c, hc, h⟩
  have hEne : E ≠ [] := by
    obtain ⟨c, hc⟩ := List.exists_mem_of_ne_nil _ hne
    have := (hg c hc).count
    obtain ⟨a, h⟩ := List.exists_mem_of_ne_nil c.edges (by intro h; rw [h] at this; simp at this)
    exact List.ne_nil_of_mem (hsub c hc a h)
  refine ⟨E, hEne, hE, hm, ?_⟩
  unfold new
  rw [hr, Res.bind_ok, if_neg (by simpa using hEne)]
  have h1 : (E.map fun e => (e, cs.map fun c => binAt c.edges e)).map Prod.fst = E := by
    rw [List.map_map]; exact List.map_id E
  have h2 : (E.map fun e => (e, cs.map fun c => binAt c.edges e)).map Prod.snd =
      E.map fun e => cs.map fun c => binAt c.edges e := by
    rw [List.map_map]; rfl
  simp only
  rw [h1, h2, size_comp, merge_ok hg hE hsub, Res.bind_ok, ← List.map_dropLast, List.map_map, List.length_map]
  have h3 : E.dropLast.map (layerPixels (cs.map Layers.comp) ∘ fun e => cs.map fun c => binAt c.edges e) =
      E.dropLast.map fun e => (allAt cs e).length := by
    apply List.map_congr_left
    intro e _
    exact layerPixels_ok e cs hg
  rw [h3]

/-- C122: the energies of the components put together are all their energies, each once and in
increasing order, and there is one bin less than energies. -/
theorem C122_energies {cs : List Layers} (hne : cs ≠ []) (hg : ∀ c ∈ cs, Good c) (ha : Apart 1e-5 cs) :
    ∃ m, new (cs.map Layers.comp) = .ok m ∧ m.energies.Pairwise (· < ·) ∧
      (∀ e, e ∈ m.energies ↔ ∃ c ∈ cs, e ∈ c.edges) ∧ m.nebins + 1 = m.energies.length := by
  obtain ⟨E, h0, h1, h2, h3⟩ := new_ok hne hg ha
  have := List.length_pos_of_ne_nil h0
  exact ⟨_, h3, h1, h2, by simp only; omega⟩

/-- C122: the counts of the components put together are, energy after energy and component after component, the
counts of the bins that begin at that energy, and the sizes of the layers are those; every count of every
component is there, in the order of the component, and there is no other. -/
theorem C122_counts {cs : List Layers} (hne : cs ≠ []) (hg : ∀ c ∈ cs, Good c) (ha : Apart 1e-5 cs) :
    ∃ m, new (cs.map Layers.comp) = .ok m ∧ m.data = m.energies.flatMap (allAt cs) ∧
      m.npixLayer = m.energies.dropLast.map (fun e => (allAt cs e).length) ∧ m.npixLayer.length = m.nebins ∧
      m.npixLayer.sum = m.data.length ∧
      (∀ c ∈ cs, m.energies.flatMap (fun e => layerAt e c.edges c.layers) = c.layers.flatten) ∧
      m.data.length = (cs.map fun c => c.layers.flatten.length).sum := by
  obtain ⟨E, h0, h1, h2, h3⟩ := new_ok hne hg ha
  have hsub : ∀ c ∈ cs, ∀ a ∈ c.edges, a ∈ E := fun c hc a h => (h2 a).2 ⟨c, hc, h⟩
  have hlast : allAt cs (E.getLast h0) = [] := by
    have hE := List.dropLast_append_getLast h0
    unfold allAt
    rw [List.flatMap_eq_nil_iff]
    exact fun c hc => layerAt_last (hg c hc) (E := E.dropLast) (by rw [hE]; exact h1) (by rw [hE]; exact hsub c hc)
  refine ⟨_, h3, rfl, rfl, by simp, ?_, fun c hc => comp_flat h1 (hg c hc).sorted (hsub c hc) (hg c hc).count, ?_⟩
  · simp only
    conv_rhs => rw [← List.dropLast_append_getLast h0, List.flatMap_append, List.length_append, List.length_flatMap]
    simp [hlast]
  · simp only
    rw [total_length hg h1 hsub, List.map_congr_left fun c hc => (comp_size (hg c hc)).symm]

/-- C122: any other numbers of the same components, such as those of a source, are put together in the same
order, so that each stays with its count. -/
theorem C122_templates {cs cs' : List Layers} (hne : cs ≠ []) (hg : ∀ c ∈ cs, Good c) (ha : Apart 1e-5 cs)
    (hg' : ∀ c ∈ cs', Good c) (he : cs'.map Layers.edges = cs.map Layers.edges)
    (hn : cs'.map Layers.npix = cs.map Layers.npix) :
    ∃ m, new (cs.map Layers.comp) = .ok m ∧
      mergeVectors (cs'.map Layers.comp) m.rows (List.replicate m.data.length 0) = .ok (m.energies.flatMap (allAt cs')) ∧
      ∀ e, (allAt cs' e).length = (allAt cs e).length := by
  obtain ⟨E, h0, h1, h2, h3⟩ := new_ok hne hg ha
  have hsub : ∀ c ∈ cs, ∀ a ∈ c.edges, a ∈ E := fun c hc a h => (h2 a).2 ⟨c, hc, h⟩
  have hsub' : ∀ c ∈ cs', ∀ a ∈ c.edges, a ∈ E := by
    intro c hc a h
    have : c.edges ∈ cs.map Layers.edges := by rw [← he]; exact List.mem_map_of_mem hc
    obtain ⟨d, hd, e⟩ := List.mem_map.1 this
    exact hsub d hd a (by rw [e]; exact h)
  have hrow : ∀ e, (cs'.map fun c => binAt c.edges e) = cs.map fun c => binAt c.edges e := by
    intro e
    have := congrArg (List.map (binAt · e)) he
    rwa [List.map_map, List.map_map] at this
  have hrows : (E.map fun e => cs.map fun c => binAt c.edges e) = E.map fun e => cs'.map fun c => binAt c.edges e :=
    List.map_congr_left fun e _ => (hrow e).symm
  have hpx : ∀ (ds ds' : List Layers), ds'.map Layers.edges = ds.map Layers.edges → ds'.map Layers.npix = ds.map Layers.npix →
      (ds'.map fun c => c.npix * (c.edges.length - 1)) = ds.map fun c => c.npix * (c.edges.length - 1) := by
    intro ds
    induction ds with
    | nil => intro ds' a _; rw [List.map_nil, List.map_eq_nil_iff] at a; rw [a]
    | cons d ds ih =>
      intro ds' a b
      cases ds' with
      | nil => simp at a
      | cons d' ds' =>
        simp only [List.map_cons, List.cons.injEq] at a b ⊢
        exact ⟨by rw [a.1, b.1], ih ds' a.2 b.2⟩
  refine ⟨_, h3, ?_, fun e => ?_⟩
  · simp only
    rw [total_length hg h1 hsub, hrows, ← hpx cs cs' he hn]
    exact merge_ok hg' h1 hsub'
  · have a1 := layerPixels_ok e cs hg
    have a2 := layerPixels_ok e cs' hg'
    rw [← a1, ← a2, hrow e]
    unfold layerPixels
    clear a1 a2 h0 h1 h2 h3 hsub hsub' hrow hrows hpx hg hg' ha hne he
    congr 1
    generalize (cs.map fun c => binAt c.edges e) = ks
    induction cs generalizing cs' ks with
    | nil => rw [List.map_nil, List.map_eq_nil_iff] at hn; rw [hn]
    | cons d ds ih =>
      cases cs' with
      | nil => simp at hn
      | cons d' ds' =>
        cases ks with
        | nil => simp
        | cons k ks =>
          simp only [List.map_cons, List.cons.injEq] at hn
          simp only [List.map_cons, List.zip_cons_cons, List.cons.injEq]
          refine ⟨?_, ih hn.2 ks⟩
          show (if k < 0 then 0 else d'.npix) = if k < 0 then 0 else d.npix
          rw [hn.1]

/-- C122: without components there is an exception. -/
theorem C122_none : new [] = .throws := by
  simp [new, energyLoop, lowest]

/-- C122 does not hold for limits of the energy range: whatever range of bins is asked for, each component gets a
range that ends where it begins and has no bin at all. -/
theorem C122_limits_violates {cs : List Layers} (hne : cs ≠ []) (hg : ∀ c ∈ cs, Good c) (ha : Apart 1e-5 cs) :
    ∃ m, new (cs.map Layers.comp) = .ok m ∧ ∀ kmin kmax, kmin < m.energies.length →
      ∃ lims, setKlims m cs.length kmin kmax = .ok lims ∧ lims.length = cs.length ∧
        ∀ p ∈ lims, ∀ k, ¬ (p.1 ≤ k ∧ k < p.2) := by
  obtain ⟨E, h0, h1, h2, h3⟩ := new_ok hne hg ha
  refine ⟨_, h3, fun kmin kmax hk => ?_⟩
  simp only at hk
  have hrow : (E.map fun e => cs.map fun c => binAt c.edges e)[kmin]? = some (cs.map fun c => binAt c.edges E[kmin]) := by
    rw [List.getElem?_map, List.getElem?_eq_getElem hk]; rfl
  have hone : ∀ i ∈ List.range cs.length, klimsOf (E.map fun e => cs.map fun c => binAt c.edges e) kmin i =
      .ok (if ((cs.map fun c => binAt c.edges E[kmin])[i]?).getD 0 < 0 then (0, 0)
        else ((((cs.map fun c => binAt c.edges E[kmin])[i]?).getD 0).toNat,
          (((cs.map fun c => binAt c.edges E[kmin])[i]?).getD 0).toNat)) := by
    intro i hi
    rw [List.mem_range] at hi
    unfold klimsOf vget
    rw [hrow]
    simp only [Res.bind_ok]
    rw [List.getElem?_eq_getElem (by simpa using hi)]
    simp only [Res.bind_ok, Option.getD_some, or_self]
    split <;> rfl
  refine ⟨_, mapM_ok _ _ _ hone, by simp, ?_⟩
  intro p hp k
  obtain ⟨i, _, rfl⟩ := List.mem_map.1 hp
  split <;> simp

/-- C122 does not hold for bins of different widths: the only bin of the first component, which covers both bins
of the second, is put with the first of them, and nothing of it with the other. -/
theorem C122_overlap_violates :
    ∃ m, new [⟨[1, 10], 1, [5]⟩, ⟨[1, 3, 10], 1, [7, 11]⟩] = .ok m ∧ m.energies = [1, 3, 10] ∧
      m.npixLayer = [2, 1] ∧ m.data = [5, 7, 11] := by
  refine ⟨⟨[1, 3, 10], [[0, 0], [-1, 1], [-1, -1]], [2, 1], 2, [5, 7, 11]⟩, ?_, rfl, rfl, rfl⟩
  norm_num [new, energyLoop, lowest, advance, defaultTol, mergeVectors, mergeRows, mergeRow, mergeCell, layerPixels,
    Res.bind_ok]
  intro h
  cases h

/-- C122 does not hold for an energy of zero: it is left out, with the bin that begins there, and the counts end
with a number that is nobody's. -/
theorem C122_zero_violates :
    ∃ m, new [⟨[0, 1, 2], 1, [5, 7]⟩] = .ok m ∧ m.energies = [1, 2] ∧ m.nebins = 1 ∧ m.data = [7, 0] := by
  refine ⟨⟨[1, 2], [[1], [-1]], [1], 1, [7, 0]⟩, ?_, rfl, rfl, rfl⟩
  norm_num [new, energyLoop, lowest, advance, defaultTol, mergeVectors, mergeRows, mergeRow, mergeCell, layerPixels,
    Res.bind_ok]
  intro h
  cases h

/-- Two components: the second begins one bin later. -/
example : ∃ cs : List Layers, cs.length = 2 ∧ cs ≠ [] ∧ (∀ c ∈ cs, Good c) ∧ Apart 1e-5 cs := by
  refine ⟨[⟨[1, 2, 4], 2, [[1, 2], [3, 4]]⟩, ⟨[2, 4], 1, [[9]]⟩], rfl, by simp, ?_, ?_⟩
  · intro c hc
    simp at hc
    rcases hc with rfl | rfl
    · exact ⟨by norm_num, by norm_num, by simp, by simp⟩
    · exact ⟨by norm_num, by norm_num, by simp, by simp⟩
  · intro c hc c' hc' a ha b hb
    simp at hc hc'
    rcases hc with rfl | rfl <;> rcases hc' with rfl | rfl <;> simp at ha hb <;>
      rcases ha with rfl | rfl | rfl <;> rcases hb with rfl | rfl | rfl <;> norm_num

end Verif.FitMerge
