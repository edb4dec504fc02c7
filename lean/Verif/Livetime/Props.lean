import Mathlib.Tactic.NormNum
import Mathlib.Tactic.Ring
import Verif.Livetime.Lemmas
/-
C60: livetime and exposure are accumulated for exactly the good time.
-/
set_option linter.unusedSectionVars false
set_option linter.unusedSimpArgs false
set_option linter.unusedVariables false
namespace Verif.Livetime
open MeasureTheory Set
open Verif.Livetime.Spec

theorem good_eq (start stop : ℝ) (cuts gtis : List (ℝ × ℝ)) :
    good start stop cuts gtis = union gtis ∩ {t | (∀ k ∈ cuts, k.1 ≤ t ∧ t ≤ k.2) ∧ start ≤ t ∧ t ≤ stop} := by
  ext t
  simp only [good, union, mem_inter_iff, Set.mem_ofPred_eq]
  tauto

/-- The fraction is the measure of the part of the interval that passes all cuts and lies in
the good time intervals, over the length of the interval; an interval that is rejected has
no good time. -/
theorem C60_fraction (start stop : ℝ) (cuts gtis : List (ℝ × ℝ)) (h : start < stop) (hg : Ordered gtis)
    (hne : gtis ≠ []) :
    ∃ b, acceptInterval start stop cuts gtis = .ok (b, fraction start stop cuts gtis) ∧
      (b = false → fraction start stop cuts gtis = 0) := by
  unfold acceptInterval
  rw [if_neg (not_lt.2 h.le), if_neg h.ne]
  have hc := applyCuts_eq cuts (start, stop) h
  cases e : applyCuts cuts (start, stop) with
  | none =>
    have hz : fraction start stop cuts gtis = 0 := by
      rw [fraction, good_eq, measure_mono_null inter_subset_right (hc.2 e), ENNReal.toReal_zero, zero_div]
    exact ⟨false, by rw [hz], fun _ => hz⟩
  | some c =>
    obtain ⟨h1, h2⟩ := hc.1 c e
    simp only [] at h2
    refine ⟨true, ?_, fun h => by cases h⟩
    have hs : ((chosen gtis c).map fun g => overlap g c).sum = (volume (good start stop cuts gtis)).toReal := by
      rw [chosen_sum hg, ← union_vol hg, h2, good_eq]
    have hle : ¬ (c.2 - c.1 < ((chosen gtis c).map fun g => overlap g c).sum ∨ gtis.length = 0) := by
      rintro (hlt | h0)
      · rw [hs] at hlt
        have : (volume (good start stop cuts gtis)).toReal ≤ c.2 - c.1 := by
          rw [good_eq]
          have := ENNReal.toReal_mono (by rw [Real.volume_Icc]; exact ENNReal.ofReal_ne_top)
            (measure_mono (μ := volume) (inter_subset_right (s := union gtis) (t := Icc c.1 c.2)))
          rw [Real.volume_Icc, ENNReal.toReal_ofReal (by linarith), h2] at this
          exact this
        linarith
      · exact hne (List.length_eq_zero_iff.1 h0)
    simp only []
    rw [if_neg hle, hs, fraction]

/-- Without good time intervals only the cuts count. -/
theorem C60_no_gtis (start stop : ℝ) (cuts : List (ℝ × ℝ)) (h : start < stop) :
    ∃ b, acceptInterval start stop cuts [] = .ok (b,
      (volume {t | (∀ k ∈ cuts, k.1 ≤ t ∧ t ≤ k.2) ∧ start ≤ t ∧ t ≤ stop}).toReal / (stop - start)) := by
  unfold acceptInterval
  rw [if_neg (not_lt.2 h.le), if_neg h.ne]
  have hc := applyCuts_eq cuts (start, stop) h
  cases e : applyCuts cuts (start, stop) with
  | none => exact ⟨false, by rw [hc.2 e, ENNReal.toReal_zero, zero_div]⟩
  | some c =>
    obtain ⟨h1, h2⟩ := hc.1 c e
    simp only [] at h2
    refine ⟨true, ?_⟩
    simp only []
    rw [if_pos (Or.inr List.length_nil), ← h2, Real.volume_Icc, ENNReal.toReal_ofReal (by linarith)]

/-- The fraction lies between zero and one whatever the cuts and the good time intervals,
even if these are not in order or overlap. -/
theorem C60_bounds (start stop : ℝ) (cuts gtis : List (ℝ × ℝ)) {b : Bool} {f : ℝ}
    (h : acceptInterval start stop cuts gtis = .ok (b, f)) : 0 ≤ f ∧ f ≤ 1 := by
  unfold acceptInterval at h
  split at h
  · cases h
  · rename_i h1
    split at h
    · cases h; norm_num
    · rename_i h2
      have hlt : start < stop := lt_of_le_of_ne (not_lt.1 h1) h2
      have hc := applyCuts_eq cuts (start, stop) hlt
      split at h
      · cases h; norm_num
      · rename_i c e
        obtain ⟨h3, h4⟩ := hc.1 c e
        simp only [] at h4
        have hlen : c.2 - c.1 ≤ stop - start := by
          have hsub : Icc c.1 c.2 ⊆ Icc start stop := by
            rw [h4]; rintro t ⟨_, h5⟩; exact h5
          have := (Icc_subset_Icc_iff h3.le).1 hsub
          linarith [this.1, this.2]
        simp only [Res.ok.injEq, Prod.mk.injEq] at h
        rw [← h.2]
        have hpos : 0 < stop - start := by linarith
        have hsum : 0 ≤ ((chosen gtis c).map fun g => overlap g c).sum :=
          List.sum_nonneg fun x hx => by
            obtain ⟨g, _, rfl⟩ := List.mem_map.1 hx
            exact overlap_nonneg _ _
        refine ⟨div_nonneg ?_ hpos.le, (div_le_one hpos).2 ?_⟩
        · split
          · linarith
          · exact hsum
        · split
          · exact hlen
          · rename_i h6
            exact (not_lt.1 fun h => h6 (Or.inl h)).trans hlen

/-- An interval of no length counts nothing; a reversed one is refused. -/
theorem C60_refuses (start stop : ℝ) (cuts gtis : List (ℝ × ℝ)) :
    (acceptInterval start stop cuts gtis = .throws ↔ stop < start) ∧
    acceptInterval start start cuts gtis = .ok (false, 0) := by
  constructor
  · unfold acceptInterval
    split
    · rename_i h; simp [h]
    · rename_i h
      simp only [h, iff_false]
      split
      · simp
      · split <;> simp
  · unfold acceptInterval
    rw [if_neg (lt_irrefl _), if_pos rfl]

/-! ### The table -/

variable {δ : Type}

theorem tmin_le {gtis : List (ℝ × ℝ)} : ∀ g ∈ gtis, tmin gtis ≤ g.1 := by
  have key : ∀ (l : List (ℝ × ℝ)) (m : ℝ), l.foldl (fun m g => if g.1 < m then g.1 else m) m ≤ m ∧
      ∀ g ∈ l, l.foldl (fun m g => if g.1 < m then g.1 else m) m ≤ g.1 := by
    intro l
    induction l with
    | nil => intro m; simp
    | cons x l ih =>
      intro m
      rw [List.foldl_cons]
      obtain ⟨h1, h2⟩ := ih (if x.1 < m then x.1 else m)
      have h3 : (if x.1 < m then x.1 else m) ≤ m ∧ (if x.1 < m then x.1 else m) ≤ x.1 := by
        split
        · rename_i h; exact ⟨h.le, le_rfl⟩
        · rename_i h; exact ⟨le_rfl, not_lt.1 h⟩
      refine ⟨h1.trans h3.1, fun g hg => ?_⟩
      rcases List.mem_cons.1 hg with rfl | hg
      · exact h1.trans h3.2
      · exact h2 g hg
  cases gtis with
  | nil => simp
  | cons x l =>
    intro g hg
    obtain ⟨h1, h2⟩ := key l x.1
    rcases List.mem_cons.1 hg with rfl | hg
    · exact h1
    · exact h2 g hg

theorem le_tmax {gtis : List (ℝ × ℝ)} : ∀ g ∈ gtis, g.2 ≤ tmax gtis := by
  have key : ∀ (l : List (ℝ × ℝ)) (m : ℝ), m ≤ l.foldl (fun m g => if m < g.2 then g.2 else m) m ∧
      ∀ g ∈ l, g.2 ≤ l.foldl (fun m g => if m < g.2 then g.2 else m) m := by
    intro l
    induction l with
    | nil => intro m; simp
    | cons x l ih =>
      intro m
      rw [List.foldl_cons]
      obtain ⟨h1, h2⟩ := ih (if m < x.2 then x.2 else m)
      have h3 : m ≤ (if m < x.2 then x.2 else m) ∧ x.2 ≤ (if m < x.2 then x.2 else m) := by
        split
        · rename_i h; exact ⟨h.le, le_rfl⟩
        · rename_i h; exact ⟨le_rfl, not_lt.1 h⟩
      refine ⟨h3.1.trans h1, fun g hg => ?_⟩
      rcases List.mem_cons.1 hg with rfl | hg
      · exact h3.2.trans h1
      · exact h2 g hg
  cases gtis with
  | nil => simp
  | cons x l =>
    intro g hg
    obtain ⟨h1, h2⟩ := key l x.2
    rcases List.mem_cons.1 hg with rfl | hg
    · exact h1
    · exact h2 g hg

theorem fraction_zero {start stop : ℝ} {cuts gtis : List (ℝ × ℝ)}
    (h : stop ≤ tmin gtis ∨ tmax gtis ≤ start) : fraction start stop cuts gtis = 0 := by
  have : volume (good start stop cuts gtis) = 0 := by
    rcases h with h | h
    · refine measure_mono_null (t := {stop}) ?_ Real.volume_singleton
      rintro t ⟨_, h2, _, g, hg, h3, _⟩
      exact le_antisymm h2 (h.trans ((tmin_le g hg).trans h3))
    · refine measure_mono_null (t := {start}) ?_ Real.volume_singleton
      rintro t ⟨h1, _, _, g, hg, _, h3⟩
      exact le_antisymm (h3.trans ((le_tmax g hg).trans h)) h1
  rw [fraction, this, ENNReal.toReal_zero, zero_div]

/-- The rows of the table are in order and do not overlap. -/
def Sorted (rows : List (Row δ)) : Prop :=
  (∀ r ∈ rows, r.start ≤ r.stop) ∧ rows.Pairwise fun a b => a.stop ≤ b.start

theorem accept_row {cuts gtis : List (ℝ × ℝ)} (hg : Ordered gtis) (hne : gtis ≠ []) {r : Row δ} (hr : r.start ≤ r.stop) :
    ∃ b, acceptInterval r.start r.stop cuts gtis = .ok (b, fraction r.start r.stop cuts gtis) ∧
      (b = false → fraction r.start r.stop cuts gtis = 0) := by
  rcases lt_or_eq_of_le hr with h | h
  · exact C60_fraction _ _ cuts gtis h hg hne
  · have : fraction r.start r.stop cuts gtis = 0 := by rw [fraction, h, sub_self, div_zero]
    refine ⟨false, ?_, fun _ => this⟩
    rw [this, ← h]
    exact (C60_refuses _ 0 cuts gtis).2

theorem loadLoop_eq {cuts gtis : List (ℝ × ℝ)} (hg : Ordered gtis) (hne : gtis ≠ []) (rows : List (Row δ))
    (hr : Sorted rows) (last : ℝ) (hl : ∀ r ∈ rows, last ≤ r.start) :
    ∃ fills, loadLoop cuts gtis (tmax gtis) rows last = .ok fills ∧
      (∀ f : δ → ℝ, (fills.map fun x => f x.dir * x.time).sum =
        (rows.map fun r => f r.dir * (r.livetime * fraction r.start r.stop cuts gtis)).sum) ∧
      ∀ f : δ → ℝ, (fills.map fun x => f x.dir * x.weighted).sum =
        (rows.map fun r => f r.dir * (r.livetime * fraction r.start r.stop cuts gtis *
          (r.livetime / (r.stop - r.start)))).sum := by
  induction rows generalizing last with
  | nil => exact ⟨[], rfl, fun _ => rfl, fun _ => rfl⟩
  | cons r rows ih =>
    have hpw := List.pairwise_cons.1 hr.2
    have hrs : Sorted rows := ⟨fun x hx => hr.1 x (List.mem_cons_of_mem _ hx), hpw.2⟩
    rw [loadLoop]
    by_cases hlt : last < tmax gtis
    · rw [if_pos hlt]
      obtain ⟨b, h1, h2⟩ := accept_row (cuts := cuts) hg hne (hr.1 r (List.mem_cons_self ..))
      obtain ⟨fills, h3, h4, h5⟩ := ih hrs r.start fun x hx => (hr.1 r (List.mem_cons_self ..)).trans (hpw.1 x hx)
      rw [h1, Res.bind_ok, h3, Res.bind_ok]
      cases b with
      | true =>
        refine ⟨_, rfl, fun f => ?_, fun f => ?_⟩
        · simp only [if_true, List.map_cons, List.sum_cons, h4]
        · simp only [if_true, List.map_cons, List.sum_cons, h5]
      | false =>
        refine ⟨_, rfl, fun f => ?_, fun f => ?_⟩
        · simp only [Bool.false_eq_true, if_false, List.map_cons, List.sum_cons, h4, h2 rfl]; ring
        · simp only [Bool.false_eq_true, if_false, List.map_cons, List.sum_cons, h5, h2 rfl]; ring
    · rw [if_neg hlt]
      have hz : ∀ x ∈ r :: rows, fraction x.start x.stop cuts gtis = 0 := fun x hx =>
        fraction_zero (Or.inr ((not_lt.1 hlt).trans (hl x hx)))
      refine ⟨[], rfl, fun f => ?_, fun f => ?_⟩
      · rw [sum_zero (l := r :: rows) fun x hx => by rw [hz x hx]; ring]; rfl
      · rw [sum_zero (l := r :: rows) fun x hx => by rw [hz x hx]; ring]; rfl

/-- However a map weighs the directions, the livetime filled into it is the sum over *all* the
rows of the table of the livetime times the fraction of good time: the rows that are skipped
or not reached have none.  The second map gets the same, times the livetime fraction. -/
theorem C60_load (cuts gtis : List (ℝ × ℝ)) (rows : List (Row δ)) (hg : Ordered gtis) (hne : gtis ≠ [])
    (hr : Sorted rows) :
    ∃ fills, load cuts gtis rows = .ok fills ∧
      (∀ f : δ → ℝ, (fills.map fun x => f x.dir * x.time).sum =
        (rows.map fun r => f r.dir * (r.livetime * fraction r.start r.stop cuts gtis)).sum) ∧
      ∀ f : δ → ℝ, (fills.map fun x => f x.dir * x.weighted).sum =
        (rows.map fun r => f r.dir * (r.livetime * fraction r.start r.stop cuts gtis *
          (r.livetime / (r.stop - r.start)))).sum := by
  classical
  set k := firstRow rows (tmin gtis) with hk
  have hskip : ∀ r ∈ rows.take k, fraction r.start r.stop cuts gtis = 0 := by
    intro r hrk
    obtain ⟨i, hi, rfl⟩ := List.mem_iff_getElem.1 hrk
    rw [List.length_take] at hi
    rw [List.getElem_take]
    refine fraction_zero (Or.inl ?_)
    set u := rows.findIdx (fun r => decide (tmin gtis < r.start)) with hu
    have hku : k = if u ≠ 0 then u - 1 else u := by rw [hk, firstRow, hu]
    have hu0 : u ≠ 0 := by
      intro h0; rw [hku, h0] at hi; simp at hi
    rw [if_pos hu0] at hku
    have hule : u ≤ rows.length := List.findIdx_le_length
    have h1 := List.pairwise_iff_getElem.1 hr.2 i (u - 1) (by omega) (by omega) (by omega)
    have h2 : ¬ tmin gtis < (rows[u - 1]'(by omega)).start := by
      have := List.not_of_lt_findIdx (p := fun r : Row δ => decide (tmin gtis < r.start)) (xs := rows) (i := u - 1)
        (by omega)
      simpa using this
    exact h1.trans (not_lt.1 h2)
  have hdrop : ∀ w : Row δ → ℝ, (rows.map fun r => w r * fraction r.start r.stop cuts gtis).sum =
      ((rows.drop k).map fun r => w r * fraction r.start r.stop cuts gtis).sum := by
    intro w
    conv_lhs => rw [← List.take_append_drop k rows, List.map_append, List.sum_append]
    rw [sum_zero fun x hx => by rw [hskip x hx, mul_zero], zero_add]
  have hsd : Sorted (rows.drop k) :=
    ⟨fun r h => hr.1 r (List.mem_of_mem_drop h), hr.2.sublist (List.drop_sublist _ _)⟩
  obtain ⟨fills, h1, h2, h3⟩ : ∃ fills, load cuts gtis rows = .ok fills ∧
      (∀ f : δ → ℝ, (fills.map fun x => f x.dir * x.time).sum =
        ((rows.drop k).map fun r => f r.dir * (r.livetime * fraction r.start r.stop cuts gtis)).sum) ∧
      ∀ f : δ → ℝ, (fills.map fun x => f x.dir * x.weighted).sum =
        ((rows.drop k).map fun r => f r.dir * (r.livetime * fraction r.start r.stop cuts gtis *
          (r.livetime / (r.stop - r.start)))).sum := by
    obtain ⟨g0, gs, hgs⟩ := List.exists_cons_of_ne_nil hne
    unfold load
    rw [hgs]
    simp only []
    rw [← hgs, ← hk]
    cases e : rows.drop k with
    | nil => exact ⟨[], rfl, fun _ => rfl, fun _ => rfl⟩
    | cons r rest =>
      rw [e] at hsd
      refine loadLoop_eq hg hne (r :: rest) hsd r.start fun x hx => ?_
      rcases List.mem_cons.1 hx with rfl | hx
      · exact le_rfl
      · exact (hsd.1 r (List.mem_cons_self ..)).trans ((List.pairwise_cons.1 hsd.2).1 x hx)
  refine ⟨fills, h1, fun f => ?_, fun f => ?_⟩
  · rw [h2]
    have := hdrop fun r => f r.dir * r.livetime
    simp only [mul_assoc] at this ⊢
    exact this.symm
  · rw [h3]
    have := hdrop fun r => f r.dir * r.livetime * (r.livetime / (r.stop - r.start))
    have e : ∀ r : Row δ, f r.dir * (r.livetime * fraction r.start r.stop cuts gtis * (r.livetime / (r.stop - r.start))) =
        f r.dir * r.livetime * (r.livetime / (r.stop - r.start)) * fraction r.start r.stop cuts gtis := fun r => by ring
    simp only [e]
    exact this.symm

/-- Livetime is filled exactly if there are good time intervals; without any the program refuses
to go on instead of writing an empty map. -/
theorem C60_no_gti (cuts gtis : List (ℝ × ℝ)) (rows : List (Row δ)) (hg : Ordered gtis) (hr : Sorted rows) :
    (load cuts gtis rows = .throws ↔ gtis = []) ∧ load cuts gtis rows ≠ .ub := by
  cases gtis with
  | nil => exact ⟨⟨fun _ => rfl, fun _ => rfl⟩, by unfold load; simp⟩
  | cons g gs =>
    obtain ⟨fills, h, -⟩ := C60_load cuts (g :: gs) rows hg (by simp) hr
    rw [h]
    simp

/-! ### Exposure at a point -/

/-- What one row of the spacecraft data adds to the exposure. -/
noncomputable def contribution (cuts gtis : List (ℝ × ℝ)) (area : Row δ → ℝ) (visible : Row δ → Bool) (r : Row δ) : ℝ :=
  if visible r then area r * r.livetime * fraction r.start r.stop cuts gtis else 0

theorem sumExposure_eq {cuts gtis : List (ℝ × ℝ)} (hg : Ordered gtis) (hne : gtis ≠ []) (area : Row δ → ℝ)
    (visible : Row δ → Bool) (rows : List (Row δ)) (hr : ∀ r ∈ rows, r.start ≤ r.stop) :
    sumExposure cuts gtis area visible rows = .ok (rows.map (contribution cuts gtis area visible)).sum := by
  induction rows with
  | nil => rfl
  | cons r rows ih =>
    obtain ⟨b, h1, h2⟩ := accept_row (cuts := cuts) hg hne (hr r (List.mem_cons_self ..))
    rw [sumExposure, h1, Res.bind_ok, ih fun x hx => hr x (List.mem_cons_of_mem _ hx), Res.bind_ok, List.map_cons,
      List.sum_cons, contribution]
    cases b with
    | true => simp
    | false => simp [h2 rfl]

/-- If the spacecraft data reach beyond the last time of the cuts, the exposure at a point is
the sum over all rows. -/
theorem C60_exposure_partial (cuts gtis : List (ℝ × ℝ)) (area : Row δ → ℝ) (visible : Row δ → Bool)
    (rows : List (Row δ)) (maxTime tol : ℝ) (hg : Ordered gtis) (hne : gtis ≠ []) (hr : Sorted rows) (h0 : 0 ≤ tol)
    (hmax : ∀ r ∈ rows, ∀ t ∈ good r.start r.stop cuts gtis, t ≤ maxTime)
    (f l : Row δ) (hf : rows[0]? = some f) (hl : rows[rows.length - 1]? = some l) (hfm : f.start ≤ maxTime)
    (hlm : maxTime ≤ l.stop) :
    computeExposure cuts gtis area visible rows maxTime tol =
      .ok (rows.map (contribution cuts gtis area visible)).sum := by
  classical
  unfold computeExposure numPoints
  rw [hl]
  simp only []
  rw [if_pos hlm]
  unfold timePos
  rw [hf, hl]
  simp only []
  rw [if_neg (by rintro (h | h) <;> linarith), Res.bind_ok,
    sumExposure_eq hg hne area visible _ fun r h => hr.1 r (List.mem_of_mem_take h)]
  congr 1
  set u := rows.findIdx (fun r => decide (maxTime < r.start)) with hu
  conv_rhs => rw [← List.take_append_drop u rows, List.map_append, List.sum_append]
  rw [left_eq_add]
  refine sum_zero fun r hrd => ?_
  obtain ⟨i, hi, rfl⟩ := List.mem_iff_getElem.1 hrd
  rw [List.length_drop] at hi
  rw [List.getElem_drop]
  have hlt : u < rows.length := by omega
  have h1 : maxTime < (rows[u]).start := by
    have := List.findIdx_getElem (p := fun r : Row δ => decide (maxTime < r.start)) (xs := rows) (w := hlt)
    exact of_decide_eq_true this
  have h2 : (rows[u]).start ≤ (rows[u + i]).start := by
    rcases Nat.eq_zero_or_pos i with rfl | hp
    · exact le_rfl
    · exact (hr.1 _ (List.getElem_mem hlt)).trans
        (List.pairwise_iff_getElem.1 hr.2 u (u + i) hlt (by omega) (by omega))
  have hz : fraction (rows[u + i]).start (rows[u + i]).stop cuts gtis = 0 := by
    have : good (rows[u + i]).start (rows[u + i]).stop cuts gtis = ∅ := by
      rw [Set.eq_empty_iff_forall_notMem]
      intro t ht
      have h3 := hmax _ (List.getElem_mem _) t ht
      have h4 := ht.1
      linarith
    rw [fraction, this, measure_empty, ENNReal.toReal_zero, zero_div]
  rw [contribution, hz, mul_zero, ite_self]

/-- If the spacecraft data end before the last time of the cuts, their last row is left out:
its exposure is lost. -/
theorem C60_last_violates (cuts gtis : List (ℝ × ℝ)) (area : Row δ → ℝ) (visible : Row δ → Bool)
    (rows : List (Row δ)) (r : Row δ) (maxTime tol : ℝ) (hg : Ordered gtis) (hne : gtis ≠ [])
    (hr : Sorted (rows ++ [r])) (h : r.stop < maxTime) :
    computeExposure cuts gtis area visible (rows ++ [r]) maxTime tol =
      .ok (((rows ++ [r]).map (contribution cuts gtis area visible)).sum - contribution cuts gtis area visible r) := by
  unfold computeExposure numPoints
  simp only [List.length_append, List.length_singleton, Nat.add_sub_cancel, List.getElem?_concat_length]
  rw [if_neg (not_le.2 h), Res.bind_ok, List.take_left' rfl,
    sumExposure_eq hg hne area visible rows fun x hx => hr.1 x (List.mem_append_left _ hx)]
  simp

/-- One interval of two minutes, wholly good, seen with unit area: its exposure is not zero, but
zero is computed, as the cuts end later. -/
theorem C60_lost_violates : ∃ (cuts gtis : List (ℝ × ℝ)) (rows : List (Row Unit)) (maxTime : ℝ),
    Ordered gtis ∧ gtis ≠ [] ∧ Sorted rows ∧
    (∀ tol, computeExposure cuts gtis (fun _ => 1) (fun _ => true) rows maxTime tol = .ok 0) ∧
    (rows.map (contribution cuts gtis (fun _ => 1) (fun _ => true))).sum = 120 := by
  have ho : Ordered [((0 : ℝ), (200 : ℝ))] := by
    refine ⟨fun g hg => ?_, List.pairwise_singleton _ _⟩
    rw [List.mem_singleton] at hg; subst hg; norm_num
  have hs : Sorted ([] ++ [(⟨0, 120, 120, ()⟩ : Row Unit)]) := by
    refine ⟨fun r hr => ?_, List.pairwise_singleton _ _⟩
    rw [List.nil_append, List.mem_singleton] at hr; subst hr; norm_num
  have hgood : good 0 120 [] [((0 : ℝ), (200 : ℝ))] = Icc 0 120 := by
    ext t
    simp only [good, Set.mem_ofPred_eq, List.not_mem_nil, false_implies, implies_true, List.mem_singleton,
      exists_eq_left, mem_Icc]
    constructor
    · rintro ⟨h1, h2, _⟩; exact ⟨h1, h2⟩
    · rintro ⟨h1, h2⟩; exact ⟨h1, h2, trivial, h1, by linarith⟩
  have hsum : (([] ++ [(⟨0, 120, 120, ()⟩ : Row Unit)]).map
      (contribution [] [((0 : ℝ), (200 : ℝ))] (fun _ => 1) (fun _ => true))).sum = 120 := by
    simp [contribution, fraction, hgood]
  have hc : contribution [] [((0 : ℝ), (200 : ℝ))] (fun _ => 1) (fun _ => true) (⟨0, 120, 120, ()⟩ : Row Unit) = 120 := by
    simpa using hsum
  refine ⟨[], [(0, 200)], [] ++ [⟨0, 120, 120, ()⟩], 200, ho, by simp, hs, fun tol => ?_, hsum⟩
  rw [C60_last_violates [] [(0, 200)] _ _ [] _ 200 tol ho (by simp) hs (by norm_num), hsum, hc, sub_self]

/-- Overlapping good time intervals are counted twice. -/
theorem C60_overlap_violates :
    acceptInterval 0 10 [] [(1, 4), (1, 5)] = .ok (true, 7 / 10) ∧
    fraction 0 10 [] [(1, 4), (1, 5)] = 2 / 5 := by
  constructor
  · unfold acceptInterval chosen upperFirst upperSecond applyCuts overlap
    norm_num [List.findIdx_cons]
  · have : good 0 10 [] [((1 : ℝ), (4 : ℝ)), (1, 5)] = Icc 1 5 := by
      ext t
      simp only [good, Set.mem_ofPred_eq, List.not_mem_nil, false_implies, implies_true, List.mem_cons, or_false,
        exists_eq_or_imp, exists_eq_left, mem_Icc]
      constructor
      · rintro ⟨_, _, _, ⟨h1, h2⟩ | ⟨h1, h2⟩⟩
        · exact ⟨h1, by linarith⟩
        · exact ⟨h1, h2⟩
      · rintro ⟨h1, h2⟩; exact ⟨by linarith, by linarith, trivial, Or.inr ⟨h1, h2⟩⟩
    rw [fraction, this, Real.volume_Icc, ENNReal.toReal_ofReal (by norm_num)]
    norm_num

/-- The hypotheses hold for two good time intervals, a cut and two rows. -/
example : Ordered [((0 : ℝ), (4 : ℝ)), (6, 9)] ∧
    Sorted [(⟨0, 5, 5, ()⟩ : Row Unit), ⟨5, 10, 4, ()⟩] ∧
    ∃ b, acceptInterval 0 10 [(1, 8)] [(0, 4), (6, 9)] = .ok (b, fraction 0 10 [(1, 8)] [(0, 4), (6, 9)]) := by
  have ho : Ordered [((0 : ℝ), (4 : ℝ)), (6, 9)] := by
    refine ⟨fun g hg => ?_, by simp; norm_num⟩
    simp only [List.mem_cons, List.not_mem_nil, or_false] at hg
    rcases hg with rfl | rfl <;> norm_num
  refine ⟨ho, ⟨fun r hr => ?_, by simp⟩, ?_⟩
  · simp only [List.mem_cons, List.not_mem_nil, or_false] at hr
    rcases hr with rfl | rfl <;> norm_num
  · obtain ⟨b, h, _⟩ := C60_fraction 0 10 [(1, 8)] [(0, 4), (6, 9)] (by norm_num) ho (by simp)
    exact ⟨b, h⟩

/-- The exposure of a row that outlasts the good time. -/
example : computeExposure [] [((0 : ℝ), (100 : ℝ))] (fun _ => 2) (fun _ => true) [(⟨0, 120, 120, ()⟩ : Row Unit)] 100 0 =
    .ok ([(⟨0, 120, 120, ()⟩ : Row Unit)].map
      (contribution [] [((0 : ℝ), (100 : ℝ))] (fun _ => 2) (fun _ => true))).sum := by
  refine C60_exposure_partial _ _ _ _ _ _ _ ⟨fun g hg => ?_, List.pairwise_singleton _ _⟩ (by simp)
    ⟨fun r hr => ?_, List.pairwise_singleton _ _⟩ le_rfl (fun r hr t ht => ?_) _ _ rfl rfl (by norm_num) (by norm_num)
  · rw [List.mem_singleton] at hg; subst hg; norm_num
  · rw [List.mem_singleton] at hr; subst hr; norm_num
  · obtain ⟨_, _, _, g, hg, _, h⟩ := ht
    rw [List.mem_singleton] at hg; subst hg; exact h

end Verif.Livetime
