import Verif.Edisp.Lemmas
set_option linter.unusedVariables false
set_option linter.unusedSimpArgs false
set_option linter.unusedSectionVars false
/-
What the sparse version of the npred arrays computes.
-/
namespace Verif.Edisp

open Verif.Vec
open scoped BigOperators

variable {K : Type} [Field K] [LinearOrder K]

theorem sum_planes {α : Type} [AddCommMonoid α] (g : Nat → Nat → α) (n M : Nat) :
    ∑ j ∈ Finset.range (M * n), g (j / n) (j % n) =
      ∑ k ∈ Finset.range M, ∑ p ∈ Finset.range n, g k p := by
  induction M with
  | zero => simp
  | succ M ih =>
    rw [Nat.add_mul, Nat.one_mul, Finset.sum_range_add, ih, Finset.sum_range_succ]
    congr 1
    apply Finset.sum_congr rfl
    intro p hp
    rw [Finset.mem_range] at hp
    have hn : 0 < n := by omega
    congr 1
    · rw [Nat.add_comm, Nat.add_mul_div_right _ _ hn, Nat.div_eq_of_lt hp, Nat.zero_add]
    · rw [Nat.add_comm, Nat.add_mul_mod_self_right, Nat.mod_eq_of_lt hp]

theorem sum_one_plane {α : Type} [AddCommMonoid α] (f : Nat → α) {n M k : Nat} (hk : k < M) :
    (∑ j ∈ Finset.range (M * n), if j / n = k then f (j % n) else 0) =
      ∑ p ∈ Finset.range n, f p := by
  rw [sum_planes (fun a p => if a = k then f p else 0), Finset.sum_eq_single k]
  · simp
  · intro b _ hb; simp [hb]
  · intro h; exact absurd (Finset.mem_range.2 hk) h

/-- Row `k` of a vector of rows. -/
def rowAt {α : Type} (l : List (List α)) (k : Nat) : List α := l[k]?.getD []

theorem rowAt_lt {α : Type} {l : List (List α)} {k : Nat} (h : k < l.length) :
    rowAt l k = l[k] := by simp [rowAt, List.getElem?_eq_getElem h]

theorem rowAt_set {α : Type} {l : List (List α)} {i k : Nat} {a : List α} (h : i < l.length) :
    rowAt (l.set i a) k = if k = i then a else rowAt l k := by
  unfold rowAt
  by_cases hk : k = i
  · subst hk; simp [h]
  · rw [List.getElem?_set]; simp [Ne.symm hk, hk]

/-- First plane read by the sparse code for measured bin `k`. -/
def SrcMap.sfirst (s : SrcMap K) (k : Nat) : Nat := if 0 < s.ev then s.kmin k else k

/-- Contribution of flat index `j` to entry `i` of row `k`. -/
def SrcMap.scontr (s : SrcMap K) (k i j : Nat) : K × K :=
  if j / s.npix = k + s.eb then
    if val s.model j = 0 then 0
    else (s.wt k (j % s.npix) * s.at' (s.sfirst k + i) (j % s.npix),
      s.wt k (j % s.npix) * s.at' (s.sfirst k + i + 1) (j % s.npix))
  else 0

theorem sparseLoop_append (s : SrcMap K) (read : Nat → K) (a b : List (Nat × K))
    (st : List K × List (List (K × K))) :
    sparseLoop s read (a ++ b) st = (sparseLoop s read a st >>= sparseLoop s read b) := by
  induction a generalizing st with
  | nil => rfl
  | cons e a ih =>
    simp only [List.cons_append, sparseLoop]
    rw [bind_assoc]
    congr 1
    funext st'
    exact ih st'

/-- State of the sparse loop after the flat indices below `m`. -/
structure SInv (s : SrcMap K) (m : Nat) (st : List K × List (List (K × K))) : Prop where
  npl : st.1.length = s.nEnergies
  np : ∀ k < s.nEnergies, val st.1 k =
    ∑ j ∈ Finset.range m, if j / s.npix = k then val s.model j else 0
  wnl : st.2.length = s.nebins
  rowl : ∀ k < s.nebins, (rowAt st.2 k).length = s.nTrue
  row : ∀ k < s.nebins, ∀ i < s.nTrue,
    val (rowAt st.2 k) i = ∑ j ∈ Finset.range m, s.scontr k i j

theorem range_sparse {s : SrcMap K} (h : s.toGeom.Fits) (k : Nat) :
    getEdispRange s.toGeom k = .ok (s.sfirst k, s.sfirst k + s.nTrue) := by
  rw [range_ok h]
  unfold SrcMap.sfirst
  by_cases hev : 0 < s.ev
  · simp [hev]
  · simp [hev, nTrue_of_nonpos hev]

theorem sparseStep_ok {s : SrcMap K} (h : s.Ok) {m : Nat} (hm : m < s.model.length)
    (hne : val s.model m ≠ 0) {st : List K × List (List (K × K))} (hst : SInv s m st) :
    ∃ st', sparseStep s (val s.model) (m, val s.model m) st = .ok st' ∧ SInv s (m + 1) st' := by
  have hpix : 0 < s.npix := by
    rcases Nat.eq_zero_or_pos s.npix with h0 | h0
    · rw [h.model, h0] at hm; omega
    · exact h0
  have hkt : m / s.npix < s.nEnergies := by
    rw [Nat.div_lt_iff_lt_mul hpix, ← h.model]; exact hm
  have hj : m % s.npix < s.npix := Nat.mod_lt _ hpix
  -- the npred part
  have hnp : ∀ k < s.nEnergies, val (st.1.set (m / s.npix) (val st.1 (m / s.npix) +
      val s.model m)) k = ∑ j ∈ Finset.range (m + 1), if j / s.npix = k then val s.model j else 0 := by
    intro k hk
    rw [val_set (by rw [hst.npl]; exact hkt), Finset.sum_range_succ, ← hst.np k hk]
    by_cases he : k = m / s.npix
    · rw [if_pos he, if_pos he.symm, he]
    · rw [if_neg he, if_neg (Ne.symm he), add_zero]
  unfold sparseStep
  simp only
  rw [addAt_ok (by rw [hst.npl]; exact hkt), Res.bind_ok]
  by_cases hc : m / s.npix < s.eb ∨ s.eb + s.nebins ≤ m / s.npix
  · rw [if_pos hc]
    refine ⟨_, rfl, ?_, hnp, hst.wnl, hst.rowl, ?_⟩
    · simpa using hst.npl
    · intro k hk i hi
      rw [hst.row k hk i hi, Finset.sum_range_succ]
      have : s.scontr k i m = 0 := by unfold SrcMap.scontr; rw [if_neg (by omega)]
      rw [this, add_zero]
  · rw [if_neg hc]
    have hkm : m / s.npix - s.eb < s.nebins := by omega
    set kmeas := m / s.npix - s.eb with hkmeas
    rw [weightVal_ok h hkm hj, Res.bind_ok, range_sparse h.fits, Res.bind_ok]
    simp only
    rw [vat_ok (by rw [hst.wnl]; exact hkm), Res.bind_ok,
      ← rowAt_lt (by rw [hst.wnl]; exact hkm), Nat.add_sub_cancel_left]
    obtain ⟨row', h1, h2, h3⟩ := loop_add (v := rowAt st.2 kmeas) (lo := 0) (n := s.nTrue)
      (body := fun i (row : List (K × K)) => do
        let r ← vat row i
        vset row i (r + (s.wt kmeas (m % s.npix) *
            val s.model ((s.sfirst kmeas + i) * s.npix + m % s.npix),
          s.wt kmeas (m % s.npix) *
            val s.model ((s.sfirst kmeas + i) * s.npix + m % s.npix + s.npix))))
      (fun i => s.scontr kmeas i m) (by rw [hst.rowl _ hkm]; omega)
      (by
        intro i w _ hi hl _
        have hi' : i < w.length := by rw [hl, hst.rowl _ hkm]; omega
        rw [vat_ok hi', Res.bind_ok, vset_lt _ _ _ hi', val_lt hi']
        have e3 : (s.sfirst kmeas + i) * s.npix + m % s.npix + s.npix =
          (s.sfirst kmeas + i + 1) * s.npix + m % s.npix := by ring
        rw [e3]
        unfold SrcMap.scontr
        rw [if_pos (by omega), if_neg hne]
        rfl)
    rw [h1, Res.bind_ok, vset_lt _ _ _ (by rw [hst.wnl]; exact hkm), Res.bind_ok]
    refine ⟨_, rfl, ?_, hnp, ?_, ?_, ?_⟩
    · simpa using hst.npl
    · simpa using hst.wnl
    · intro k hk
      rw [rowAt_set (by rw [hst.wnl]; exact hkm)]
      by_cases he : k = kmeas
      · rw [if_pos he, h2, hst.rowl _ hkm]
      · rw [if_neg he, hst.rowl _ hk]
    · intro k hk i hi
      rw [rowAt_set (by rw [hst.wnl]; exact hkm), Finset.sum_range_succ]
      by_cases he : k = kmeas
      · subst he
        rw [if_pos rfl, h3, if_pos (by omega), hst.row _ hkm i hi]
      · rw [if_neg he, hst.row k hk i hi]
        have : s.scontr k i m = 0 := by unfold SrcMap.scontr; rw [if_neg (by omega)]
        rw [this, add_zero]

theorem sparseRows_ok {s : SrcMap K} (h : s.Ok) :
    sparseRows s = .ok ((List.range s.nebins).map
      (fun _ => List.replicate s.nTrue ((0 : K), (0 : K)))) := by
  apply mapM_ok
  intro k _
  rw [range_sparse h.fits, Res.bind_ok]
  simp only
  rw [Nat.add_sub_cancel_left]

/-- Row `k` as computed from sparse storage. -/
def SrcMap.srow (s : SrcMap K) (k : Nat) : List (K × K) :=
  (List.range s.nTrue).map (fun i => ∑ p ∈ Finset.range s.npix,
    if s.at' (k + s.eb) p = 0 then 0
    else (s.wt k p * s.at' (s.sfirst k + i) p, s.wt k p * s.at' (s.sfirst k + i + 1) p))

theorem computeNpredsSparse_ok {s : SrcMap K} (h : s.Ok) :
    computeNpredsSparse s = .ok (s.npreds, (List.range s.nebins).map s.srow) := by
  unfold computeNpredsSparse
  rw [sparseRows_ok h, Res.bind_ok]
  have key : ∀ m ≤ s.model.length, ∃ st, sparseLoop s (val s.model)
      ((List.range m).filterMap (fun i =>
        match s.model[i]? with
        | some x => if x = 0 then none else some (i, x)
        | none => none))
      (List.replicate s.nEnergies 0, (List.range s.nebins).map
        (fun _ => List.replicate s.nTrue ((0 : K), (0 : K)))) = .ok st ∧ SInv s m st := by
    intro m hm
    induction m with
    | zero =>
      refine ⟨_, rfl, by simp, by simp, by simp, ?_, ?_⟩
      · intro k hk
        rw [rowAt_lt (by simpa using hk)]; simp
      · intro k hk i hi
        rw [rowAt_lt (by simpa using hk)]
        simp only [List.getElem_map, Finset.range_zero, Finset.sum_empty]
        exact val_replicate_zero _ _
    | succ m ih =>
      obtain ⟨st, h1, h2⟩ := ih (by omega)
      rw [List.range_succ, List.filterMap_append, sparseLoop_append, h1, Res.bind_ok]
      have hv : s.model[m]? = some (val s.model m) := getElem?_val (by omega)
      simp only [List.filterMap_cons, List.filterMap_nil, hv]
      by_cases h0 : val s.model m = 0
      · simp only [h0, if_true]
        refine ⟨st, rfl, h2.npl, ?_, h2.wnl, h2.rowl, ?_⟩
        · intro k hk
          rw [h2.np k hk, Finset.sum_range_succ, h0]
          simp
        · intro k hk i hi
          rw [h2.row k hk i hi, Finset.sum_range_succ]
          have : s.scontr k i m = 0 := by unfold SrcMap.scontr; simp [h0]
          rw [this, add_zero]
      · simp only [h0, if_false]
        obtain ⟨st', g1, g2⟩ := sparseStep_ok h (by omega) h0 h2
        refine ⟨st', ?_, g2⟩
        simp only [sparseLoop, g1, Res.bind_ok]
  obtain ⟨⟨np, wn⟩, h1, h2⟩ := key s.model.length le_rfl
  refine Eq.trans h1 ?_
  congr 1
  have eqv : ∀ j, val s.model j = s.at' (j / s.npix) (j % s.npix) := by
    intro j
    unfold SrcMap.at'
    congr 1
    rw [Nat.mul_comm]; exact (Nat.div_add_mod j s.npix).symm
  refine Prod.ext ?_ ?_
  · apply ext_val
    · rw [h2.npl]; simp [SrcMap.npreds]
    · intro k hk
      have hk' : k < s.nEnergies := by rw [← h2.npl]; exact hk
      rw [h2.np k hk', SrcMap.npreds, val_map_range _ hk', SrcMap.plane, h.model,
        ← sum_one_plane (fun p => s.at' k p) hk']
      apply Finset.sum_congr rfl
      intro j _
      by_cases hj : j / s.npix = k
      · rw [if_pos hj, if_pos hj, eqv, hj]
      · rw [if_neg hj, if_neg hj]
  · have hwl : wn.length = s.nebins := h2.wnl
    refine List.ext_getElem (by simpa using hwl) ?_
    intro k hk _
    have hk1 : k < wn.length := hk
    have hk' : k < s.nebins := by omega
    have hrl := h2.rowl k hk'
    have hr := h2.row k hk'
    simp only [rowAt_lt hk1] at hrl hr
    simp only [List.getElem_map, List.getElem_range]
    apply ext_val
    · rw [hrl]; simp [SrcMap.srow]
    · intro i hi
      rw [hr i (by omega), SrcMap.srow, val_map_range _ (by omega), h.model,
        ← sum_one_plane (fun p => if s.at' (k + s.eb) p = 0 then (0 : K × K)
          else (s.wt k p * s.at' (s.sfirst k + i) p,
            s.wt k p * s.at' (s.sfirst k + i + 1) p)) (k := k + s.eb) (M := s.nEnergies)
            (by unfold Geom.nEnergies; omega)]
      apply Finset.sum_congr rfl
      intro j _
      unfold SrcMap.scontr
      by_cases hj : j / s.npix = k + s.eb
      · rw [if_pos hj, if_pos hj, eqv, hj]
      · rw [if_neg hj, if_neg hj]

end Verif.Edisp
