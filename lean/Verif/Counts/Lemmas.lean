import Verif.Counts.Spec
import Mathlib.Data.List.Basic
/- Helper lemmas for the counts cache. -/
set_option linter.unusedSectionVars false
set_option linter.unusedSimpArgs false

namespace Verif.Counts

variable {K : Type} [Field K] [LinearOrder K]

/-- Filled pixels of the planes before `k`. -/
def filledUpTo (npix : Nat) (d : List K) (k : Nat) : List Nat :=
  (List.range k).flatMap (fun k => positivePixels (plane npix d k))

theorem filledUpTo_succ (npix : Nat) (d : List K) (k : Nat) :
    filledUpTo npix d (k + 1) = filledUpTo npix d k ++ positivePixels (plane npix d k) := by
  simp [filledUpTo, List.range_succ]

theorem plane_length {npix ne k : Nat} {d : List K} (hd : d.length = ne * npix) (hk : k < ne) :
    (plane npix d k).length = npix := by
  have : (k + 1) * npix ≤ ne * npix := Nat.mul_le_mul_right _ hk
  simp [plane, hd]; rw [Nat.add_mul] at this; omega

theorem idx_lt {npix ne k p : Nat} (hk : k < ne) (hp : p < npix) : k * npix + p < ne * npix := by
  have : (k + 1) * npix ≤ ne * npix := Nat.mul_le_mul_right _ hk
  rw [Nat.add_mul] at this; omega

theorem plane_getElem? {npix : Nat} {d : List K} {k p : Nat} (hp : p < npix) :
    (plane npix d k)[p]? = d[k * npix + p]? := by
  simp [plane, List.getElem?_take, hp, List.getElem?_drop]

theorem identifyFilled_eq (ne npix : Nat) (d : List K) (hd : d.length = ne * npix) :
    identifyFilled ne npix d = .ok (filledUpTo npix d ne,
      (List.range (ne + 1)).map (fun k => (filledUpTo npix d k).length)) := by
  have houter := loop_eq (lo := 0) (n := ne)
    (body := fun k (s : FillState) => do
      let first ← vset s.first k s.filled.length
      loop (fun _ s => do
        let x ← vget d s.i
        let filled := if 0 < x then s.filled ++ [s.i % npix] else s.filled
        .ok { s with filled := filled, i := s.i + 1 }) 0 npix { s with first := first })
    (fun k => ⟨k * npix, filledUpTo npix d k,
      (List.range k).map (fun k => (filledUpTo npix d k).length) ++
        List.replicate (ne + 1 - k) 0⟩)
    (by
      intro k _ hk
      rw [Nat.zero_add] at hk
      have hlt : k < ((List.range k).map (fun k => (filledUpTo npix d k).length) ++
          List.replicate (ne + 1 - k) 0).length := by simp; omega
      simp only [vset_lt _ _ _ hlt, Res.bind_ok]
      have hset : ((List.range k).map (fun k => (filledUpTo npix d k).length) ++
          List.replicate (ne + 1 - k) 0).set k (filledUpTo npix d k).length =
          (List.range (k + 1)).map (fun k => (filledUpTo npix d k).length) ++
          List.replicate (ne + 1 - (k + 1)) 0 := by
        have e : ne + 1 - k = (ne + 1 - (k + 1)) + 1 := by omega
        rw [e, List.replicate_succ, List.range_succ, List.set_append_right _ _ (by simp)]
        simp
      rw [hset]
      have hin := loop_eq (lo := 0) (n := npix)
        (body := fun _ (s : FillState) => do
          let x ← vget d s.i
          let filled := if 0 < x then s.filled ++ [s.i % npix] else s.filled
          .ok { s with filled := filled, i := s.i + 1 })
        (fun p => ⟨k * npix + p, filledUpTo npix d k ++
          (List.range p).filter (fun i => 0 < ((plane npix d k)[i]?).getD 0),
          (List.range (k + 1)).map (fun k => (filledUpTo npix d k).length) ++
          List.replicate (ne + 1 - (k + 1)) 0⟩)
        (by
          intro p _ hp
          rw [Nat.zero_add] at hp
          have hi : k * npix + p < d.length := by rw [hd]; exact idx_lt hk hp
          have hmod : (k * npix + p) % npix = p := by
            rw [Nat.mul_comm, Nat.mul_add_mod]; exact Nat.mod_eq_of_lt hp
          simp only [vget_lt _ _ hi, Res.bind_ok, hmod, List.range_succ, List.filter_append,
            List.filter_cons, List.filter_nil, plane_getElem? hp, List.getElem?_eq_getElem hi,
            Option.getD_some, Nat.add_assoc]
          by_cases h0 : 0 < d[k * npix + p] <;> simp [h0])
      simp only [Nat.add_zero, List.range_zero, List.filter_nil, List.append_nil, Nat.zero_add]
        at hin
      rw [hin, filledUpTo_succ, positivePixels, plane_length hd hk, Nat.add_mul, Nat.one_mul])
  simp only [Nat.zero_mul, Nat.zero_add, List.range_zero, List.map_nil, List.nil_append,
    Nat.sub_zero] at houter
  have h0 : filledUpTo npix d 0 = [] := rfl
  rw [h0] at houter
  simp only [identifyFilled, houter, Res.bind_ok]
  have hlt : ne < ((List.range ne).map (fun k => (filledUpTo npix d k).length) ++
      List.replicate (ne + 1 - ne) 0).length := by simp
  simp only [vset_lt _ _ _ hlt, Res.bind_ok]
  rw [List.set_append_right _ _ (by simp)]
  simp [List.range_succ]

theorem filledUpTo_length_mono (npix : Nat) (d : List K) {k k' : Nat} (h : k ≤ k') :
    (filledUpTo npix d k).length ≤ (filledUpTo npix d k').length := by
  induction h with
  | refl => exact Nat.le_refl _
  | step _ ih => rw [filledUpTo_succ]; simp; omega

theorem filledUpTo_prefix (npix : Nat) (d : List K) {k k' : Nat} (h : k ≤ k') :
    filledUpTo npix d k <+: filledUpTo npix d k' := by
  induction h with
  | refl => exact List.prefix_refl _
  | step _ ih => rw [filledUpTo_succ]; exact ih.trans (List.prefix_append _ _)

theorem stretch_filledUpTo (ne npix : Nat) (d : List K) {k : Nat} (hk : k < ne) :
    stretch (filledUpTo npix d ne)
      ((List.range (ne + 1)).map (fun k => (filledUpTo npix d k).length)) k =
      positivePixels (plane npix d k) := by
  have h1 : ((List.range (ne + 1)).map (fun k => (filledUpTo npix d k).length))[k]? =
      some (filledUpTo npix d k).length := by
    simp [List.getElem?_range, show k < ne + 1 by omega]
  have h2 : ((List.range (ne + 1)).map (fun k => (filledUpTo npix d k).length))[k + 1]? =
      some (filledUpTo npix d (k + 1)).length := by
    simp [List.getElem?_range, hk]
  simp only [stretch, h1, h2, Option.getD_some]
  obtain ⟨t, ht⟩ := filledUpTo_prefix npix d (Nat.succ_le_of_lt hk)
  rw [← ht, Nat.succ_eq_add_one, filledUpTo_succ]
  simp

theorem weightedCounts_eq (ne npix : Nat) (data weights : List K)
    (hd : data.length = ne * npix) (hw : weights.length = ne * npix) :
    weightedCounts ne npix data weights = .ok (weighted data weights) := by
  let val : Nat → K := fun idx => ((weighted data weights)[idx]?).getD 0
  have hwl : (weighted data weights).length = ne * npix := by simp [weighted, hd, hw]
  have houter := loop_eq (lo := 0) (n := npix)
    (body := fun j wts =>
      loop (fun k wts => do
        let idx := k * npix + j
        let w ← vget weights idx
        let d ← vget data idx
        let isNull := w ≤ 0 ∨ d ≤ 0
        let w := if isNull then 0 else w
        vset wts idx (d * w)) 0 ne wts)
    (fun j => (List.range (ne * npix)).map (fun idx => if idx % npix < j then val idx else 0))
    (by
      intro j _ hj
      rw [Nat.zero_add] at hj
      have hin := loop_eq (lo := 0) (n := ne)
        (body := fun k wts => do
          let idx := k * npix + j
          let w ← vget weights idx
          let d ← vget data idx
          let isNull := w ≤ 0 ∨ d ≤ 0
          let w := if isNull then 0 else w
          vset wts idx (d * w))
        (fun k => (List.range (ne * npix)).map (fun idx =>
          if idx % npix < j ∨ (idx % npix = j ∧ idx / npix < k) then val idx else 0))
        (by
          intro k _ hk
          rw [Nat.zero_add] at hk
          have hi := idx_lt hk hj
          simp only [vget_lt weights _ (hw ▸ hi), vget_lt data _ (hd ▸ hi), Res.bind_ok]
          rw [vset_lt _ _ _ (by simpa using hi)]
          congr 1
          have hmod : (k * npix + j) % npix = j := by
            rw [Nat.mul_comm, Nat.mul_add_mod]; exact Nat.mod_eq_of_lt hj
          have hdiv : (k * npix + j) / npix = k := by
            rw [Nat.mul_comm, Nat.mul_add_div (by omega), Nat.div_eq_of_lt hj, Nat.add_zero]
          apply List.ext_getElem
          · simp
          · intro n hn hn'
            simp only [List.length_set, List.length_map, List.length_range] at hn
            simp only [List.getElem_set, List.getElem_map, List.getElem_range]
            by_cases hnk : k * npix + j = n
            · subst hnk
              have hv : val (k * npix + j) = if weights[k * npix + j] ≤ 0 ∨
                  data[k * npix + j] ≤ 0 then 0 else data[k * npix + j] * weights[k * npix + j] := by
                simp only [val, List.getElem?_eq_getElem (hwl ▸ hi), Option.getD_some]
                simp [weighted]
              simp only [if_true, hmod, hdiv, Nat.lt_irrefl, false_or, true_and,
                Nat.lt_succ_self, hv]
              split <;> simp_all
            · simp only [hnk, if_false]
              have : (n % npix = j ∧ n / npix < k + 1) ↔ (n % npix = j ∧ n / npix < k) := by
                constructor
                · rintro ⟨h1, h2⟩
                  refine ⟨h1, ?_⟩
                  rcases Nat.lt_or_eq_of_le (Nat.lt_succ_iff.1 h2) with h | h
                  · exact h
                  · exact absurd (by rw [← h, ← h1]; rw [Nat.mul_comm]; exact Nat.div_add_mod n npix) hnk
                · rintro ⟨h1, h2⟩; exact ⟨h1, by omega⟩
              simp only [this])
      have e0 : (List.range (ne * npix)).map (fun idx =>
          if idx % npix < j ∨ (idx % npix = j ∧ idx / npix < 0) then val idx else 0) =
          (List.range (ne * npix)).map (fun idx => if idx % npix < j then val idx else 0) := by
        simp
      have e1 : (List.range (ne * npix)).map (fun idx =>
          if idx % npix < j ∨ (idx % npix = j ∧ idx / npix < 0 + ne) then val idx else 0) =
          (List.range (ne * npix)).map (fun idx => if idx % npix < j + 1 then val idx else 0) := by
        apply List.map_congr_left
        intro idx hidx
        have hlt : idx < ne * npix := List.mem_range.1 hidx
        have hdl : idx / npix < ne := Nat.div_lt_of_lt_mul (by rw [Nat.mul_comm]; exact hlt)
        have : (idx % npix < j ∨ (idx % npix = j ∧ idx / npix < 0 + ne)) ↔ idx % npix < j + 1 := by
          omega
        simp only [this]
      rw [e0, e1] at hin
      exact hin)
  have e0 : (List.range (ne * npix)).map (fun idx => if idx % npix < 0 then val idx else 0) =
      List.replicate (ne * npix) 0 := by
    simp
  have e1 : (List.range (ne * npix)).map (fun idx => if idx % npix < 0 + npix then val idx else 0) =
      weighted data weights := by
    apply List.ext_getElem
    · simp [hwl]
    · intro n hn hn'
      simp only [List.length_map, List.length_range] at hn
      have hpos : 0 < npix := by
        rcases Nat.eq_zero_or_pos npix with h | h
        · rw [h] at hn; simp at hn
        · exact h
      simp [val, Nat.mod_lt _ hpos, hn']
  rw [e0, e1] at houter
  exact houter

theorem plane_take_succ {npix : Nat} {d : List K} {k p : Nat} (hp : p < npix)
    (hi : k * npix + p < d.length) :
    (plane npix d k).take (p + 1) = (plane npix d k).take p ++ [d[k * npix + p]] := by
  rw [List.take_add_one, plane_getElem? hp, List.getElem?_eq_getElem hi]; rfl

theorem specPlane (npix ne k : Nat) (d dw : List K) (hd : d.length = ne * npix)
    (hdw : dw.length = ne * npix) (hk : k < ne) :
    loop (fun _ a => specBody d dw a) 0 npix ⟨k * npix, 0, 0⟩ =
      .ok ⟨(k + 1) * npix, (plane npix d k).sum, (plane npix dw k).sum⟩ := by
  have h := loop_eq (lo := 0) (n := npix) (body := fun _ a => specBody d dw a)
    (fun p => ⟨k * npix + p, ((plane npix d k).take p).sum, ((plane npix dw k).take p).sum⟩)
    (by
      intro p _ hp
      rw [Nat.zero_add] at hp
      have hi := idx_lt hk hp
      simp only [specBody, vget_lt d _ (hd ▸ hi), vget_lt dw _ (hdw ▸ hi), Res.bind_ok,
        plane_take_succ hp (hd ▸ hi), plane_take_succ hp (hdw ▸ hi), List.sum_append,
        List.sum_cons, List.sum_nil, add_zero]
      rfl)
  simp only [Nat.add_zero, List.take_zero, List.sum_nil, Nat.zero_add] at h
  rw [h, List.take_of_length_le (by rw [plane_length hd hk]),
    List.take_of_length_le (by rw [plane_length hdw hk]), Nat.add_mul, Nat.one_mul]

theorem countsSpectrumHealpix_eq (npix ne : Nat) (d dw : List K) (hd : d.length = ne * npix)
    (hdw : dw.length = ne * npix) :
    countsSpectrumHealpix npix ne d dw = .ok
      ((List.range ne).map (fun k => (plane npix d k).sum),
       (List.range ne).map (fun k => (plane npix dw k).sum)) := by
  have h := loop_eq (lo := 0) (n := ne)
    (body := fun _ (s : Nat × List K × List K) => do
      let a ← loop (fun _ a => specBody d dw a) 0 npix ⟨s.1, 0, 0⟩
      .ok (a.indx, s.2.1 ++ [a.ntot], s.2.2 ++ [a.ntotWt]))
    (fun k => (k * npix, (List.range k).map (fun k => (plane npix d k).sum),
      (List.range k).map (fun k => (plane npix dw k).sum)))
    (by
      intro k _ hk
      rw [Nat.zero_add] at hk
      simp [specPlane npix ne k d dw hd hdw hk, List.range_succ])
  simp only [Nat.zero_mul, List.range_zero, List.map_nil, Nat.zero_add] at h
  simp [countsSpectrumHealpix, h]

/-- A double loop with the same body equals one loop over the product. -/
theorem loop_add {σ : Type} (body : σ → Res σ) (lo lo' m n : Nat) (s : σ) :
    (loop (fun _ a => body a) lo m s >>= fun a => loop (fun _ a => body a) lo' n a) =
      loop (fun _ a => body a) lo (m + n) s := by
  have hlo : ∀ (n lo lo' : Nat) (s : σ), loop (fun _ a => body a) lo n s =
      loop (fun _ a => body a) lo' n s := by
    intro n
    induction n with
    | zero => intros; rfl
    | succ n ih =>
      intro lo lo' s
      simp only [loop]
      cases body s with
      | ok a => simp only [Res.bind_ok]; exact ih _ _ _
      | throws => rfl
      | ub => rfl
  induction m generalizing lo s with
  | zero => simp [loop, hlo n lo' lo]
  | succ m ih =>
    have e : m + 1 + n = (m + n) + 1 := by omega
    rw [e]
    simp only [loop]
    cases body s with
    | ok a => simp only [Res.bind_ok]; exact ih _ _
    | throws => rfl
    | ub => rfl

theorem loop_mul {σ : Type} (body : σ → Res σ) (nx ny lo : Nat) (s : σ) :
    loop (fun _ a => loop (fun _ a => body a) 0 nx a) lo ny s =
      loop (fun _ a => body a) 0 (nx * ny) s := by
  induction ny generalizing lo s with
  | zero => rfl
  | succ ny ih =>
    simp only [loop]
    have : (fun a => loop (fun _ a => loop (fun _ a => body a) 0 nx a) (lo + 1) ny a) =
        (fun a => loop (fun _ a => body a) 0 (nx * ny) a) := by
      funext a; exact ih _ _
    rw [this, loop_add, Nat.mul_add, Nat.mul_one, Nat.add_comm]

theorem countsSpectrumWcs_eq_healpix (nx ny nz : Nat) (d dw : List K) :
    countsSpectrumWcs nx ny nz d dw = countsSpectrumHealpix (nx * ny) nz d dw := by
  simp only [countsSpectrumWcs, countsSpectrumHealpix, loop_mul]

theorem weighted_length (data weights : List K) (h : weights.length = data.length) :
    (weighted data weights).length = data.length := by simp [weighted, h]

/-- Refreshing succeeds and gives a coherent cache. -/
theorem refresh_coherent (c : Cache K) (hd : c.data.length = c.ne * c.npix)
    (hw : ∀ w, c.wMap = some w → w.length = c.ne * c.npix) :
    ∃ c', c.refresh = .ok c' ∧ Coherent c' ∧ c'.data = c.data ∧ c'.wMap = c.wMap ∧
      c'.wOrig = c.wOrig ∧ c'.ne = c.ne ∧ c'.npix = c.npix ∧
      c'.wCounts = c.wMap.map (weighted c.data) := by
  obtain ⟨ne, npix, data, wOrig, wMap, wCounts, filled, first, spec, specWt⟩ := c
  simp only at hd hw
  have key : ∀ (wc : Option (List K)) (e : List K), e = effective data wMap →
      (match wc with | some w => w | none => data) = e → e.length = ne * npix →
      Coherent (K := K) ⟨ne, npix, data, wOrig, wMap, wc, filledUpTo npix e ne,
        (List.range (ne + 1)).map (fun k => (filledUpTo npix e k).length),
        (List.range ne).map (fun k => (plane npix data k).sum),
        (List.range ne).map (fun k => (plane npix e k).sum)⟩ := by
    intro wc e he hm hel
    refine ⟨by simp, by simp, ?_, ?_, rfl, by simp [he]⟩
    · intro k k' hkk hk'
      simp only at hk' ⊢
      simp [List.getElem?_range, show k < ne + 1 by omega, show k' < ne + 1 by omega,
        filledUpTo_length_mono npix e hkk]
    · intro k hk
      simp only at hk ⊢
      rw [stretch_filledUpTo ne npix e hk, he]
  cases hm : wMap with
  | none =>
    subst hm
    refine ⟨_, ?_, key none data rfl rfl hd, rfl, rfl, rfl, rfl, rfl, rfl⟩
    simp [Cache.refresh, Cache.effData, identifyFilled_eq ne npix data hd,
      countsSpectrumHealpix_eq npix ne data data hd hd]
  | some w =>
    subst hm
    have hwl := hw w rfl
    have hel : (weighted data w).length = ne * npix := by
      rw [weighted_length _ _ (by omega), hd]
    refine ⟨_, ?_, key (some (weighted data w)) (weighted data w) rfl rfl hel, rfl, rfl, rfl,
      rfl, rfl, rfl⟩
    simp [Cache.refresh, Cache.effData, weightedCounts_eq ne npix data w hd hwl,
      identifyFilled_eq ne npix _ hel, countsSpectrumHealpix_eq npix ne data _ hd hel]

theorem sum_planes (npix : Nat) (d : List K) (k : Nat) :
    ((List.range k).map (fun k => (plane npix d k).sum)).sum = (d.take (k * npix)).sum := by
  induction k with
  | zero => simp
  | succ k ih =>
    rw [List.range_succ, List.map_append, List.sum_append, ih, Nat.add_mul, Nat.one_mul,
      List.take_add, List.sum_append]
    simp [plane]

/-- What all reachable caches satisfy. -/
structure Good (c : Cache K) : Prop where
  coh : Coherent c
  dlen : c.data.length = c.ne * c.npix
  wlen : ∀ w, c.wMap = some w → w.length = c.ne * c.npix

theorem step_good (wp : Nat → List K) (c : Cache K) (op : Op K) (h : Good c)
    (hp : ∀ i, (wp i).length = c.ne * c.npix) :
    (c.step wp op = .throws) ∨ ∃ c', c.step wp op = .ok c' ∧ Good c' ∧ c'.ne = c.ne ∧
      c'.npix = c.npix := by
  cases op with
  | setCountsMap counts =>
    simp only [Cache.step]
    split
    · exact Or.inl rfl
    · rename_i hl
      push Not at hl
      obtain ⟨c', h1, h2, h3, h4, h5, h6, h7, h8⟩ :=
        refresh_coherent ({ c with data := counts } : Cache K) (hl.trans h.dlen) h.wlen
      exact Or.inr ⟨c', h1, ⟨h2, by rw [h3, h6, h7]; exact hl.trans h.dlen,
        by rw [h4, h6, h7]; exact h.wlen⟩, h6, h7⟩
  | setWeightsMap ptr =>
    simp only [Cache.step]
    split
    · exact Or.inr ⟨c, rfl, h, rfl, rfl⟩
    · have hw : ∀ w, ptr.map wp = some w → w.length = c.ne * c.npix := by
        intro w hw
        cases ptr with
        | none => simp at hw
        | some i => simp at hw; rw [← hw]; exact hp i
      obtain ⟨c', h1, h2, h3, h4, h5, h6, h7, h8⟩ :=
        refresh_coherent ({ c with wOrig := ptr, wMap := ptr.map wp } : Cache K) h.dlen hw
      exact Or.inr ⟨c', h1, ⟨h2, by rw [h3, h6, h7]; exact h.dlen,
        by rw [h4, h6, h7]; exact hw⟩, h6, h7⟩
  | deleteOriginalWeightMap =>
    exact Or.inr ⟨_, rfl, ⟨⟨h.coh.1, h.coh.2, h.coh.3, h.coh.4, h.coh.5, h.coh.6⟩, h.dlen,
      h.wlen⟩, rfl, rfl⟩

theorem run_good (wp : Nat → List K) (c : Cache K) (ops : List (Op K)) (h : Good c)
    (hp : ∀ i, (wp i).length = c.ne * c.npix) :
    ∃ c', c.run wp ops = .ok c' ∧ Good c' ∧ c'.ne = c.ne ∧ c'.npix = c.npix := by
  induction ops generalizing c with
  | nil => exact ⟨c, rfl, h, rfl, rfl⟩
  | cons op ops ih =>
    rcases step_good wp c op h hp with h1 | ⟨c1, h1, h2, h3, h4⟩
    · simp only [Cache.run, h1]; exact ih c h hp
    · simp only [Cache.run, h1]
      obtain ⟨c', h5, h6, h7, h8⟩ := ih c1 h2 (by rw [h3, h4]; exact hp)
      exact ⟨c', h5, h6, h7.trans h3, h8.trans h4⟩

theorem mk_good (wp : Nat → List K) (ne npix : Nat) (data : List K) (ptr : Option Nat)
    (hd : data.length = ne * npix) (hp : ∀ i, (wp i).length = ne * npix) :
    ∃ c, Cache.mk' wp ne npix data ptr = .ok c ∧ Good c ∧ c.ne = ne ∧ c.npix = npix ∧
      c.data = data ∧ c.wMap = ptr.map wp ∧ c.wOrig = ptr := by
  have hw : ∀ w, ptr.map wp = some w → w.length = ne * npix := by
    intro w hw
    cases ptr with
    | none => simp at hw
    | some i => simp at hw; rw [← hw]; exact hp i
  obtain ⟨c', h1, h2, h3, h4, h5, h6, h7, h8⟩ := refresh_coherent
    ({ ne := ne, npix := npix, data := data, wOrig := ptr, wMap := ptr.map wp,
       wCounts := none, filled := [], first := [], spec := [], specWt := [] } : Cache K) hd hw
  exact ⟨c', h1, ⟨h2, by rw [h3, h6, h7]; exact hd, by rw [h4, h6, h7]; exact hw⟩, h6, h7, h3, h4,
    h5⟩

end Verif.Counts
