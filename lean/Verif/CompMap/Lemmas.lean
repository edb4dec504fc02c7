import Verif.CompMap.Model
import Verif.CompMap.Spec
import Verif.AddMap.Props
import Verif.Energy.Lemmas
import Mathlib.Tactic.Ring
import Mathlib.Tactic.Linarith

set_option linter.unusedSimpArgs false
set_option linter.unusedVariables false
set_option linter.unusedSectionVars false

/-!
# Source maps of composite sources: lemmas
-/

namespace Verif.CompMap

open Verif.Vec

/-- The map for a range of phases, one without. -/
def phi (ph : Option (ℕ → ℕ → ℝ)) (k i : ℕ) : ℝ :=
  match ph with
  | none => 1
  | some φ => φ k i

theorem idx_div {k i npix : ℕ} (hi : i < npix) : (k * npix + i) / npix = k ∧ (k * npix + i) % npix = i := by
  have hn : 0 < npix := by omega
  constructor
  · rw [Nat.add_comm, Nat.add_mul_div_right _ _ hn, Nat.div_eq_of_lt hi, Nat.zero_add]
  · rw [Nat.add_comm, Nat.add_mul_mod_self_right, Nat.mod_eq_of_lt hi]

theorem phase_ok (ph : Option (ℕ → ℕ → ℝ)) {nE npix : ℕ} {m : List ℝ} (hm : m.length = nE * npix) :
    ∃ m', phase ph nE npix m = .ok m' ∧ m'.length = nE * npix ∧
      ∀ k i, k < nE → i < npix → val m' (k * npix + i) = val m (k * npix + i) * phi ph k i := by
  cases ph with
  | none => exact ⟨m, rfl, hm, fun k i _ _ => by simp [phi]⟩
  | some φ =>
    obtain ⟨w, h1, h2, h3⟩ := loop_add (v := m) (lo := 0) (n := nE * npix)
      (body := fun idx m => do
        let x ← vget m idx
        vset m idx (x * φ (idx / npix) (idx % npix)))
      (fun idx => val m idx * φ (idx / npix) (idx % npix) - val m idx) (by omega)
      (by
        intro i w _ hi hl hv
        rw [vget_val (by omega), Res.bind_ok]
        unfold vset
        rw [if_pos (by omega)]
        refine congrArg Res.ok (congrArg _ ?_)
        rw [hv]; ring)
    refine ⟨w, h1, by omega, fun k i hk hi => ?_⟩
    have hlt := idx_lt hi hk
    rw [h3, if_pos ⟨Nat.zero_le _, by omega⟩, (idx_div hi).1, (idx_div hi).2]
    simp only [phi]
    ring

theorem npreds_ok {nE npix : ℕ} {m : List ℝ} (hm : m.length = nE * npix) :
    npreds nE npix m = .ok ((List.range nE).map
      (fun k => ∑ j ∈ Finset.range npix, val m (k * npix + j))) := by
  unfold npreds
  refine mapM_ok _ _ _ fun k hk => ?_
  rw [List.mem_range] at hk
  rw [loop_sum (fun j => val m (k * npix + j)) 0 (by
    intro j s _ hj
    have := idx_lt (n := npix) (p := j) (k := k) (m := nE) (by omega) hk
    rw [vget_val (by omega), Res.bind_ok])]
  simp

/-- What is made of a composite source, given the sum of its parts. -/
def madeOf (nE npix : ℕ) (spec m : List ℝ) : Made :=
  ⟨⟨npix, nE, false, m, ⟨0, 0, []⟩, spec, spec, m⟩,
    (List.range nE).map (fun k => ∑ j ∈ Finset.range npix, val m (k * npix + j))⟩

theorem finish_ok (ph : Option (ℕ → ℕ → ℝ)) {nE npix : ℕ} {img : List ℝ} (spec : List ℝ)
    (hm : img.length = nE * npix) :
    ∃ m, finish ph nE npix spec img = .ok (madeOf nE npix spec m) ∧ m.length = nE * npix ∧
      ∀ k i, k < nE → i < npix → val m (k * npix + i) = val img (k * npix + i) * phi ph k i := by
  obtain ⟨m, h1, h2, h3⟩ := phase_ok ph hm
  refine ⟨m, ?_, h2, h3⟩
  unfold finish
  rw [h1, Res.bind_ok, npreds_ok h2, Res.bind_ok]
  rfl

mutual
/-- What the source maps give: the map for a range of phases at every level. -/
def lev (φ : ℕ → ℕ → ℝ) (k i : ℕ) : Spec.Tree → ℝ
  | .leaf img spec => img k i * φ k i * spec k
  | .comp spec parts => levAll φ k i parts * φ k i * spec k
/-- The same for several sources. -/
def levAll (φ : ℕ → ℕ → ℝ) (k i : ℕ) : List Spec.Tree → ℝ
  | [] => 0
  | t :: ts => lev φ k i t + levAll φ k i ts
end

mutual
theorem lev_one (k i : ℕ) : ∀ t, lev (fun _ _ => 1) k i t = Spec.sky k i t
  | .leaf img spec => by simp [lev, Spec.sky]
  | .comp spec parts => by simp [lev, Spec.sky, levAll_one k i parts]
theorem levAll_one (k i : ℕ) : ∀ ts, levAll (fun _ _ => 1) k i ts = Spec.skyAll k i ts
  | [] => rfl
  | t :: ts => by simp [levAll, Spec.skyAll, lev_one k i t, levAll_one k i ts]
end

/-- Adding a map to a vector: the planes of all energies, times the spectrum. -/
theorem add_ok {s : AddMap.SMap ℝ} {M v : List ℝ} (h : s.Holds M)
    (hs : s.isSparse = false → s.specVals.length = s.nE) (hv : v.length = s.nE * s.npix) :
    ∃ s' out, s.addToVector v true 0 (-1) = .ok (s', out) ∧ out.length = v.length ∧
      ∀ k i, k < s.nE → i < s.npix → val out (k * s.npix + i) = val v (k * s.npix + i) +
        val M (k * s.npix + i) * val (if s.isSparse then s.current else s.specVals) k := by
  have hp : AddMap.Planes s.nE 0 (-1) 0 s.nE :=
    ⟨rfl, Or.inr ⟨by decide, rfl⟩, Nat.zero_le _, Nat.le_refl _⟩
  cases hd : s.isSparse with
  | false =>
    obtain ⟨out, g1, g2, g3⟩ := AddMap.C33_dense_add h hd hp (v := v) (by rw [hv, Nat.sub_zero]) true
      (fun _ => hs hd)
    refine ⟨s, out, g1, g2, fun k i hk hi => ?_⟩
    have := g3 k i (by rw [hv]; exact idx_lt hi hk) hi
    rw [this]
    simp [AddMap.factors]
  | true =>
    obtain ⟨out, g1, g2, g3⟩ := AddMap.C33_sparse_add_partial h hd hp (v := v)
      (by rw [hv, Nat.sub_zero]) (fun hc => absurd hc (Nat.lt_irrefl _))
    refine ⟨s.setSpec, out, g1, g2, fun k i hk hi => ?_⟩
    have := g3 k i (by rw [hv]; exact idx_lt hi hk) hi
    rw [this]
    simp

variable {numE npix : ℕ}

theorem madeOf_holds {spec m : List ℝ} (hs : spec.length = numE) (hm : m.length = numE * npix)
    (hpos : 0 < numE * npix) : (madeOf numE npix spec m).map.Holds m := by
  refine ⟨hm, fun _ => ⟨rfl, ?_⟩, (fun h => by cases h), hs⟩
  rintro rfl
  simp only [List.length_nil] at hm
  omega

mutual
theorem mapOf_ok (ph : Option (ℕ → ℕ → ℝ)) (hpos : 0 < numE * npix) :
    ∀ (s : Src) (t : Spec.Tree), Spec.Is numE npix (phi ph) s t →
      ∃ m M, mapOf ph numE npix s = .ok m ∧ m.npix = npix ∧ m.nE = numE ∧ m.Holds M ∧
        (m.isSparse = false → m.specVals = m.current) ∧
        ∀ k i, k < numE → i < npix →
          val M (k * npix + i) * val m.current k = lev (phi ph) k i t
  | .leaf s, .leaf img spec, h => by
    unfold Spec.Is at h
    obtain ⟨h1, h2, ⟨M, h3, h4⟩, h5, h6⟩ := h
    exact ⟨s, M, by rw [mapOf], h1, h2, h3, h5, fun k i hk hi => by
      rw [h4 k i hk hi, h6 k hk, lev]⟩
  | .comp bins l parts, .comp spec ts, h => by
    unfold Spec.Is at h
    obtain ⟨rfl, h2, h3, h4⟩ := h
    obtain ⟨img, g1, g2, g3⟩ := fillParts_ok ph hpos parts ts h4 (List.replicate (numE * npix) 0)
      (by rw [List.length_replicate])
    obtain ⟨m, f1, f2, f3⟩ := finish_ok ph (nE := numE) (npix := npix) (img := img) l g2
    refine ⟨(madeOf numE npix l m).map, m, ?_, rfl, rfl, madeOf_holds h2 f2 hpos, fun _ => rfl, ?_⟩
    · rw [mapOf, g1, Res.bind_ok, Nat.mul_zero, Nat.add_zero, f1, Res.bind_ok]
    · intro k i hk hi
      show val m (k * npix + i) * val l k = _
      rw [f3 k i hk hi, g3 k i hk hi, h3 k hk, lev, val_replicate_zero, zero_add]
  | .leaf _, .comp _ _, h => by unfold Spec.Is at h; exact h.elim
  | .comp _ _ _, .leaf _ _, h => by unfold Spec.Is at h; exact h.elim
theorem fillParts_ok (ph : Option (ℕ → ℕ → ℝ)) (hpos : 0 < numE * npix) :
    ∀ (ss : List Src) (ts : List Spec.Tree), Spec.IsAll numE npix (phi ph) ss ts →
      ∀ v : List ℝ, v.length = numE * npix → ∃ out, fillParts ph numE npix v ss = .ok out ∧
        out.length = numE * npix ∧ ∀ k i, k < numE → i < npix →
          val out (k * npix + i) = val v (k * npix + i) + levAll (phi ph) k i ts
  | [], [], _, v, hv => ⟨v, by rw [fillParts], hv, fun k i _ _ => by simp [levAll]⟩
  | s :: ss, t :: ts, h, v, hv => by
    unfold Spec.IsAll at h
    obtain ⟨m, M, a1, a2, a3, a4, a5, a6⟩ := mapOf_ok ph hpos s t h.1
    obtain ⟨s', out, b1, b2, b3⟩ := add_ok a4 (fun hd => by rw [a5 hd, a4.spec])
      (v := v) (by rw [hv, a2, a3])
    obtain ⟨out', c1, c2, c3⟩ := fillParts_ok ph hpos ss ts h.2 out (by rw [b2, hv])
    refine ⟨out', ?_, c2, ?_⟩
    · rw [fillParts, a1, Res.bind_ok, b1, Res.bind_ok, c1]
    · intro k i hk hi
      have e := b3 k i (by rw [a3]; exact hk) (by rw [a2]; exact hi)
      rw [a2] at e
      have e2 : (if m.isSparse = true then m.current else m.specVals) = m.current := by
        cases hd : m.isSparse with
        | false => simp [a5 hd]
        | true => simp
      rw [e2, a6 k i hk hi] at e
      rw [c3 k i hk hi, e, levAll]
      ring
  | [], _ :: _, h, _, _ => by unfold Spec.IsAll at h; exact h.elim
  | _ :: _, [], h, _, _ => by unfold Spec.IsAll at h; exact h.elim
end

/-- A composite source without additional energies. -/
theorem makeComp_ok (ph : Option (ℕ → ℕ → ℝ)) (hpos : 0 < numE * npix) {parts : List Src}
    {ts : List Spec.Tree} (h : Spec.IsAll numE npix (phi ph) parts ts) (spec : List ℝ) :
    ∃ m, makeComp ph numE npix 0 spec parts = .ok (madeOf numE npix spec m) ∧
      m.length = numE * npix ∧ ∀ k i, k < numE → i < npix →
        val m (k * npix + i) = levAll (phi ph) k i ts * phi ph k i := by
  obtain ⟨img, g1, g2, g3⟩ := fillParts_ok ph hpos parts ts h (List.replicate (numE * npix) 0)
    (by rw [List.length_replicate])
  obtain ⟨m, f1, f2, f3⟩ := finish_ok ph (nE := numE) (npix := npix) (img := img) spec g2
  refine ⟨m, ?_, f2, fun k i hk hi => ?_⟩
  · rw [makeComp, g1, Res.bind_ok, Nat.mul_zero, Nat.add_zero, f1]
  · rw [f3 k i hk hi, g3 k i hk hi, val_replicate_zero, zero_add]

theorem weights_get {spec es ratios : List ℝ} (hs : spec.length = es.length)
    (hr : ratios.length + 1 = es.length) {k : ℕ} (hk : k + 1 < es.length) :
    ∃ w, Energy.spectralWeights spec es ratios = .ok w ∧ vget w k =
      .ok (val spec k * val es k * val ratios k / 2,
        val spec (k + 1) * val es (k + 1) * val ratios k / 2) := by
  refine ⟨_, Energy.spectralWeights_ok hs hr, ?_⟩
  unfold vget
  rw [List.getElem?_map, List.getElem?_range (by omega)]
  rfl

/-- The counts in a pixel, from a map stored in full. -/
theorem pixelCounts_ok {s : AddMap.SMap ℝ} {es ratios : List ℝ} (xi : ℝ) {k i : ℕ}
    (hm : s.model.length = es.length * s.npix) (hs : s.specVals.length = es.length)
    (hr : ratios.length + 1 = es.length) (hk : k + 1 < es.length) (hi : i < s.npix) :
    pixelCounts s es ratios xi k i = .ok (xi *
      ((val s.model (k * s.npix + i) * val s.specVals k * val es k +
        val s.model ((k + 1) * s.npix + i) * val s.specVals (k + 1) * val es (k + 1)) / 2 *
          val ratios k)) := by
  obtain ⟨w, h1, h2⟩ := weights_get hs hr hk
  have e : k * s.npix + i + s.npix = (k + 1) * s.npix + i := by ring
  have l1 := idx_lt hi (show k < es.length by omega)
  have l2 := idx_lt hi hk
  unfold pixelCounts
  rw [h1, Res.bind_ok, vget_val (by omega), Res.bind_ok, e, vget_val (by omega), Res.bind_ok, h2,
    Res.bind_ok]
  refine congrArg Res.ok ?_
  ring

theorem npredCounts_ok {spec m es ratios : List ℝ} (xi : ℝ) {k : ℕ}
    (hs : spec.length = es.length) (hr : ratios.length + 1 = es.length) (hk : k + 1 < es.length) :
    npredCounts (madeOf es.length npix spec m).map (madeOf es.length npix spec m).npred es ratios xi k =
      .ok (∑ i ∈ Finset.range npix, xi *
        ((val m (k * npix + i) * val spec k * val es k +
          val m ((k + 1) * npix + i) * val spec (k + 1) * val es (k + 1)) / 2 * val ratios k)) := by
  obtain ⟨w, h1, h2⟩ := weights_get hs hr hk
  have g : ∀ q < es.length, vget (madeOf es.length npix spec m).npred q =
      .ok (∑ j ∈ Finset.range npix, val m (q * npix + j)) := by
    intro q hq
    unfold vget madeOf
    simp only
    rw [List.getElem?_map, List.getElem?_range hq]
    rfl
  unfold npredCounts
  rw [show (madeOf es.length npix spec m).map.specVals = spec from rfl, h1, Res.bind_ok,
    g k (by omega), Res.bind_ok, g (k + 1) hk, Res.bind_ok, h2, Res.bind_ok]
  refine congrArg Res.ok ?_
  simp only
  rw [Finset.sum_mul, Finset.sum_mul, Finset.mul_sum, Finset.mul_sum, ← Finset.sum_add_distrib]
  refine Finset.sum_congr rfl fun i _ => ?_
  ring

/-- The logarithms of the ratios of energies. -/
theorem ratios_ok {es : List ℝ} (h : es ≠ []) :
    ∃ r, Energy.logEnergyRatios es = .ok r ∧ r.length + 1 = es.length ∧
      ∀ k, k + 1 < es.length → val r k = Real.log (val es (k + 1) / val es k) := by
  have hl : 0 < es.length := List.length_pos_iff.2 h
  refine ⟨_, Energy.logRatios_ok h, by simp; omega, fun k hk => ?_⟩
  rw [val_map_range _ (by omega)]

end Verif.CompMap
