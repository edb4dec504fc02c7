import Verif.FitOut.Lemmas
/-
C108: the errors of the fluxes reported by gtlike.
-/
set_option linter.unusedSectionVars false
set_option linter.unusedSimpArgs false
set_option linter.unusedVariables false

namespace Verif.FitOut

open Verif

theorem index_ok {m : Mod} (h : Spec.Named m) :
    (indexMod m ([], 0)).1 = (keys m).zipIdx 0 := by
  rw [indexMod_eq, storeAll_nodup _ _ _ (keys_nodup h) (by simp)]
  simp

theorem keys_length (m : Mod) : (keys m).length = (Spec.frees m).length := by
  rw [keys_eq, List.length_map]

/-- The free parameters of a source are a block of those of the model. -/
theorem block {m : Mod} (h : Spec.Named m) {src : List Char} {ps : List Par}
    (hm : (src, ps) ∈ m) :
    ∃ pre post, Spec.frees m = pre ++ (ps.filter (·.free)).map (fun p => (src, p)) ++ post ∧
      (∀ x ∈ pre, x.1 ≠ src) ∧ ∀ x ∈ post, x.1 ≠ src := by
  obtain ⟨m₁, m₂, rfl⟩ := List.append_of_mem hm
  refine ⟨Spec.frees m₁, Spec.frees m₂, ?_, ?_, ?_⟩
  · rw [frees_append, frees_cons, List.append_assoc]
  · intro x hx he
    obtain ⟨y, hy, h1, _⟩ := mem_frees hx
    have hn := h.1
    rw [List.map_append, List.nodup_append] at hn
    exact hn.2.2 src (List.mem_map.2 ⟨y, hy, h1.trans he⟩) src (by simp) rfl
  · intro x hx he
    obtain ⟨y, hy, h1, _⟩ := mem_frees hx
    have hn := h.1
    rw [List.map_append, List.nodup_append, List.map_cons] at hn
    exact (List.nodup_cons.1 hn.2.1).1 (List.mem_map.2 ⟨y, hy, h1.trans he⟩)

theorem fetch_block {m : Mod} (h : Spec.Named m) {src : List Char} {ps : List Par}
    {pre post : List (List Char × Par)}
    (e : Spec.frees m = pre ++ (ps.filter (·.free)).map (fun p => (src, p)) ++ post) (i : Nat)
    (hi : i < (freeNames ps).length) :
    fetch ((keys m).zipIdx 0) (key src (freeNames ps)[i]) = pre.length + i := by
  have hi' : i < (ps.filter (·.free)).length := by unfold freeNames at hi; simpa using hi
  have hl : pre.length + i < (keys m).length := by
    rw [keys_length, e, List.length_append, List.length_append, List.length_map]; omega
  have hk : key src (freeNames ps)[i] = (keys m)[pre.length + i] := by
    apply Option.some.inj
    rw [← List.getElem?_eq_getElem hl, keys_eq, e, List.getElem?_map, List.append_assoc,
      List.getElem?_append_right (by omega), List.getElem?_append_left (by simp; omega)]
    rw [show pre.length + i - pre.length = i by omega, List.getElem?_map,
      List.getElem?_eq_getElem hi']
    simp [freeNames]
  rw [hk, fetch_zipIdx _ _ _ (keys_nodup h) hl]
  omega

theorem gradient_block {m : Mod} {src : List Char} {ps : List Par}
    {pre post : List (List Char × Par)}
    (e : Spec.frees m = pre ++ (ps.filter (·.free)).map (fun p => (src, p)) ++ post)
    (d : List Char → ℝ) (i : Nat) (hi : i < (freeNames ps).length) :
    Spec.gradient m src d (pre.length + i) = d (freeNames ps)[i] := by
  have hi' : i < (ps.filter (·.free)).length := by unfold freeNames at hi; simpa using hi
  unfold Spec.gradient
  rw [e, List.append_assoc, List.getElem?_append_right (by omega),
    List.getElem?_append_left (by simp; omega),
    show pre.length + i - pre.length = i by omega, List.getElem?_map,
    List.getElem?_eq_getElem hi']
  simp [freeNames]

theorem gradient_out {m : Mod} {src : List Char} {x : List (List Char × Par)}
    (d : List Char → ℝ) (i : Nat) (h : ∀ x, (Spec.frees m)[i]? = some x → x.1 ≠ src) :
    Spec.gradient m src d i = 0 := by
  unfold Spec.gradient
  cases hx : (Spec.frees m)[i]? with
  | none => rfl
  | some x => simp only; rw [if_neg (h x hx)]

/-- **C108.** The error of the flux of a source is the one from propagation of errors with the
covariance matrix of all the free parameters of the model. -/
theorem C108_flux_error (m : Mod) (c : List (List ℝ)) (src : List Char) (ps : List Par)
    (deriv : List Char → ℝ) (h : Spec.Named m) (hc : Spec.Square (Spec.frees m).length c)
    (hm : (src, ps) ∈ m) :
    fluxError m c src ps deriv = .ok (Real.sqrt (Spec.variance m c src deriv)) := by
  obtain ⟨pre, post, e, h1, h2⟩ := block h hm
  have hn : (Spec.frees m).length = pre.length + (freeNames ps).length + post.length := by
    rw [e]; simp [freeNames]; omega
  have ho : ∀ i, i < pre.length → Spec.gradient m src deriv i = 0 := by
    intro i hi
    refine gradient_out (x := pre) deriv i (fun x hx => h1 x ?_)
    rw [e, List.append_assoc, List.getElem?_append_left hi] at hx
    exact List.mem_of_getElem? hx
  have hp : ∀ i, pre.length + (freeNames ps).length ≤ i → Spec.gradient m src deriv i = 0 := by
    intro i hi
    refine gradient_out (x := pre) deriv i (fun x hx => h2 x ?_)
    rw [e, List.getElem?_append_right (by simp [freeNames] at hi ⊢; omega)] at hx
    exact List.mem_of_getElem? hx
  have hv : Spec.variance m c src deriv =
      ∑ i ∈ Finset.range (freeNames ps).length, ∑ j ∈ Finset.range (freeNames ps).length,
        Spec.gradient m src deriv (pre.length + i) * Spec.entry c (pre.length + i) (pre.length + j) *
          Spec.gradient m src deriv (pre.length + j) := by
    unfold Spec.variance
    rw [hn, sum_block _ _ _ _ (fun i hi => ?_) (fun i hi _ => ?_)]
    · refine Finset.sum_congr rfl (fun i _ => ?_)
      rw [sum_block _ _ _ _ (fun j hj => ?_) (fun j hj _ => ?_)]
      · rw [ho j hj, mul_zero]
      · rw [hp j hj, mul_zero]
    · exact Finset.sum_eq_zero (fun j _ => by rw [ho i hi, zero_mul, zero_mul])
    · exact Finset.sum_eq_zero (fun j _ => by rw [hp i hi, zero_mul, zero_mul])
  rw [hv]
  unfold fluxError
  by_cases hz : (freeNames ps).length = 0 ∨ c = []
  · rw [if_pos hz]
    have hz' : (freeNames ps).length = 0 := by
      rcases hz with hz | hz
      · exact hz
      · have := hc.1
        rw [hz, List.length_nil] at this
        omega
    rw [hz']; simp
  · rw [if_neg hz]
    simp only
    rw [index_ok h, if_neg (by rw [hc.1, List.length_zipIdx, keys_length]; simp)]
    have hs : subCov c ((keys m).zipIdx 0) ((freeNames ps).map (key src)) =
        .ok (((freeNames ps).map (key src)).map (fun p => ((freeNames ps).map (key src)).map
          (fun q => Spec.entry c (fetch ((keys m).zipIdx 0) p) (fetch ((keys m).zipIdx 0) q)))) := by
      have hb : ∀ p ∈ (freeNames ps).map (key src),
          fetch ((keys m).zipIdx 0) p < (Spec.frees m).length := by
        intro p hp'
        obtain ⟨q, hq, rfl⟩ := List.mem_map.1 hp'
        obtain ⟨i, hi, rfl⟩ := List.mem_iff_getElem.1 hq
        rw [fetch_block h e i hi, hn]; omega
      unfold subCov
      refine each_ok _ _ _ (fun p hp' => ?_)
      exact each_ok _ _ _ (fun q hq => cell_ok hc (hb p hp') (hb q hq))
    rw [hs, Res.bind_ok]
    congr 2
    unfold quad
    rw [dot_eq _ _ (freeNames ps).length (by simp) (by simp)]
    refine Finset.sum_congr rfl (fun i hi => ?_)
    have hi := Finset.mem_range.1 hi
    rw [List.getElem?_map, List.getElem?_map, List.getElem?_map, List.getElem?_map,
      List.getElem?_eq_getElem hi]
    simp only [Option.map_some, Option.getD_some]
    rw [dot_eq _ _ (freeNames ps).length (by simp) (by simp), gradient_block e deriv i hi,
      Finset.mul_sum]
    refine Finset.sum_congr rfl (fun j hj => ?_)
    have hj := Finset.mem_range.1 hj
    rw [List.getElem?_map, List.getElem?_map, List.getElem?_map, List.getElem?_eq_getElem hj]
    simp only [Option.map_some, Option.getD_some]
    rw [fetch_block h e i hi, fetch_block h e j hj, gradient_block e deriv j hj]
    ring

/-- **C108.** A covariance matrix for another number of parameters is refused, unless the flux
has no error. -/
theorem C108_flux_size (m : Mod) (c : List (List ℝ)) (src : List Char) (ps : List Par)
    (deriv : List Char → ℝ) (h : Spec.Named m) (hp : ∃ p ∈ ps, p.free = true) (h0 : c ≠ [])
    (hl : c.length ≠ (Spec.frees m).length) : fluxError m c src ps deriv = .throws := by
  unfold fluxError
  have hz : ¬ ((freeNames ps).length = 0 ∨ c = []) := by
    rintro (hz | hz)
    · obtain ⟨p, hp1, hp2⟩ := hp
      have : p ∈ ps.filter (·.free) := List.mem_filter.2 ⟨hp1, hp2⟩
      unfold freeNames at hz
      rw [List.length_map] at hz
      rw [List.length_eq_zero_iff.1 hz] at this
      cases this
    · exact h0 hz
  rw [if_neg hz]
  simp only
  rw [index_ok h, if_pos (by rw [List.length_zipIdx, keys_length]; exact hl)]

/-- A model with two sources and three free parameters. -/
def duo : Mod :=
  [(['A'], [⟨['x'], 5, true, 0⟩, ⟨['y'], 2, false, 0⟩]),
   (['B'], [⟨['x'], 1, true, 0⟩, ⟨['z'], 3, true, 0⟩])]

/-- A covariance matrix for `duo`. -/
def cov3 : List (List ℝ) := [[4, 0, 0], [0, 1, 1], [0, 1, 2]]

-- the hypotheses of `C108_flux_error` are met by a source with two free parameters
example : Spec.Named duo := by
  refine ⟨by decide, ?_⟩
  intro x hx
  simp [duo] at hx
  rcases hx with rfl | rfl <;> simp
example : Spec.Square (Spec.frees duo).length cov3 := by
  refine ⟨rfl, ?_⟩
  intro row h
  simp [cov3] at h
  rcases h with rfl | rfl | rfl <;> rfl
example : (['B'], [⟨['x'], 1, true, 0⟩, ⟨['z'], 3, true, 0⟩]) ∈ duo := by simp [duo]
-- the covariances count
example : Spec.variance duo cov3 ['B'] (fun _ => 1) = 5 := by
  have hf : Spec.frees duo = [(['A'], ⟨['x'], 5, true, 0⟩), (['B'], ⟨['x'], 1, true, 0⟩),
    (['B'], ⟨['z'], 3, true, 0⟩)] := rfl
  unfold Spec.variance
  rw [hf]
  simp [Finset.sum_range_succ, Spec.gradient, hf, Spec.entry, cov3]
  norm_num
example : ∃ p ∈ ([⟨['x'], 5, true, 0⟩, ⟨['y'], 2, false, 0⟩] : List Par), p.free = true :=
  ⟨_, List.mem_cons_self, rfl⟩

end Verif.FitOut
