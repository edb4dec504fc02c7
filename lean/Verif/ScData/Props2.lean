import Verif.ScData.Props
import Mathlib.Analysis.Normed.Module.Basic
import Mathlib.Topology.Algebra.Order.Field
/-
C61: the motion of the axis is continuous; what is read from the files.
-/
set_option linter.unusedSectionVars false
set_option linter.unusedSimpArgs false
set_option linter.unusedVariables false
namespace Verif.ScData
open Verif.ScData.Spec Filter Topology

variable {V : Type} [NormedAddCommGroup V] [NormedSpace ℝ V]

theorem between_right (a b : ℝ) (h : a < b) (u v : V) : between b a b u v = ‖v‖⁻¹ • v := by
  have hne : b - a ≠ 0 := by intro h'; linarith
  simp only [between, sub_self, zero_div, zero_smul, zero_add, div_self hne, one_smul]

theorem between_left (a b : ℝ) (h : a < b) (u v : V) : between a a b u v = ‖u‖⁻¹ • u := by
  have hne : b - a ≠ 0 := by intro h'; linarith
  simp only [between, sub_self, zero_div, zero_smul, add_zero, div_self hne, one_smul]

/-- The formula of a piece holds at both of its ends. -/
theorem axis_closed (ax : Row V → V) {d : List (Row V)} (h : Increasing d) {t : ℝ}
    (h3 : ∀ l, d[d.length - 1]? = some l → t ≤ l.stop + tol) {i : Nat} (hi : i + 1 < d.length)
    (h1 : (d[i]).start ≤ t) (h2 : t ≤ (d[i + 1]).start ∨ i + 2 = d.length) :
    axis ax d t = .ok (between t (d[i]).start (d[i + 1]).start (ax d[i]) (ax d[i + 1])) := by
  by_cases he : i + 2 = d.length
  · exact C61_axis ax d h t h3 i hi h1 (Or.inr he)
  · rcases lt_or_eq_of_le (h2.resolve_right he) with hlt | heq
    · exact C61_axis ax d h t h3 i hi h1 (Or.inl hlt)
    · have hs : i + 1 + 1 < d.length := by omega
      rw [C61_axis ax d h t h3 (i + 1) hs heq.ge (Or.inl (heq ▸ inc_lt h (Nat.lt_succ_self _) hs))]
      rw [heq, between_left _ _ (inc_lt h (Nat.lt_succ_self _) hs), between_right _ _ (inc_lt h (Nat.lt_succ_self _) hi)]

theorem piece_right {d : List (Row V)} {t : ℝ} (h2 : 2 ≤ d.length) (h0 : (d[0]).start ≤ t) :
    ∃ (i : Nat) (hi : i + 1 < d.length), (d[i]).start ≤ t ∧ (t < (d[i + 1]).start ∨ i + 2 = d.length) := by
  by_contra hcon
  have key : ∀ i (hi : i + 1 < d.length), (d[i]).start ≤ t := by
    intro i
    induction i with
    | zero => intro _; exact h0
    | succ i ih =>
      intro hi
      by_contra hc
      exact hcon ⟨i, by omega, ih (by omega), Or.inl (not_le.1 hc)⟩
  exact hcon ⟨d.length - 2, by omega, key _ (by omega), Or.inr (by omega)⟩

theorem piece_left {d : List (Row V)} {t : ℝ} (h2 : 2 ≤ d.length) (h0 : (d[0]).start < t) :
    ∃ (i : Nat) (hi : i + 1 < d.length), (d[i]).start < t ∧ (t ≤ (d[i + 1]).start ∨ i + 2 = d.length) := by
  by_contra hcon
  have key : ∀ i (hi : i + 1 < d.length), (d[i]).start < t := by
    intro i
    induction i with
    | zero => intro _; exact h0
    | succ i ih =>
      intro hi
      by_contra hc
      exact hcon ⟨i, by omega, ih (by omega), Or.inl (not_lt.1 hc)⟩
  exact hcon ⟨d.length - 2, by omega, key _ (by omega), Or.inr (by omega)⟩

theorem between_cont (a b : ℝ) (u v : V) (t : ℝ) (h : between t a b u v ≠ 0) :
    ContinuousAt (fun s => between s a b u v) t := by
  have hw : ((b - t) / (b - a)) • u + ((t - a) / (b - a)) • v ≠ 0 := by
    intro hz
    apply h
    simp only [between, hz, smul_zero]
  have hc : ContinuousAt (fun s : ℝ => ((b - s) / (b - a)) • u + ((s - a) / (b - a)) • v) t := by
    refine Continuous.continuousAt ?_
    exact (((continuous_const.sub continuous_id).div_const _).smul continuous_const).add
      (((continuous_id.sub continuous_const).div_const _).smul continuous_const)
  exact (hc.norm.inv₀ (norm_ne_zero_iff.2 hw)).smul hc

/-- The value, or the null vector if there is none. -/
def val : Res V → V
  | .ok v => v
  | _ => 0

/-- Within the history the axis moves continuously, wherever it is defined. -/
theorem C61_continuous (ax : Row V → V) (d : List (Row V)) (h : Increasing d) (h2 : 2 ≤ d.length) (t : ℝ)
    (h0 : (d[0]).start < t) (h3 : t < (d[d.length - 1]).stop + tol)
    (v : V) (hv : axis ax d t = .ok v) (hv0 : v ≠ 0) :
    ContinuousAt (fun s => val (axis ax d s)) t := by
  have hle : ∀ s, s < (d[d.length - 1]).stop + tol → ∀ l, d[d.length - 1]? = some l → s ≤ l.stop + tol := by
    intro s hs l hl
    rw [List.getElem?_eq_getElem (show d.length - 1 < d.length by omega)] at hl
    cases hl
    exact hs.le
  rw [continuousAt_iff_continuous_left_right]
  constructor
  · obtain ⟨i, hi, h4, h5⟩ := piece_left h2 h0
    have e : axis ax d t = _ := axis_closed ax h (hle t h3) hi h4.le h5
    rw [hv] at e
    simp only [Res.ok.injEq] at e
    have hc := (between_cont _ _ _ _ t (e ▸ hv0)).continuousWithinAt (s := Set.Iic t)
    refine hc.congr_of_eventuallyEq ?_ ?_
    · have hmem : Set.Ioi (d[i]).start ∩ Set.Iic t ∈ 𝓝[Set.Iic t] t :=
        Filter.inter_mem (nhdsWithin_le_nhds (Ioi_mem_nhds h4)) self_mem_nhdsWithin
      filter_upwards [hmem] with s hs
      have h7 : s ≤ t := hs.2
      rw [axis_closed ax h (hle s (lt_of_le_of_lt h7 h3)) hi (le_of_lt hs.1) (h5.imp_left fun h => h7.trans h)]
      rfl
    · rw [hv, e]; rfl
  · obtain ⟨i, hi, h4, h5⟩ := piece_right h2 h0.le
    have e : axis ax d t = _ := axis_closed ax h (hle t h3) hi h4 (h5.imp_left le_of_lt)
    rw [hv] at e
    simp only [Res.ok.injEq] at e
    have hc := (between_cont _ _ _ _ t (e ▸ hv0)).continuousWithinAt (s := Set.Ici t)
    refine hc.congr_of_eventuallyEq ?_ ?_
    · rcases h5 with h5 | h5
      · have hmem : (Set.Iio (d[i + 1]).start ∩ Set.Iio ((d[d.length - 1]).stop + tol)) ∩ Set.Ici t ∈ 𝓝[Set.Ici t] t :=
          Filter.inter_mem (nhdsWithin_le_nhds (Filter.inter_mem (Iio_mem_nhds h5) (Iio_mem_nhds h3))) self_mem_nhdsWithin
        filter_upwards [hmem] with s hs
        have h7 : t ≤ s := hs.2
        rw [axis_closed ax h (hle s hs.1.2) hi (h4.trans h7) (Or.inl (le_of_lt hs.1.1))]
        rfl
      · have hmem : Set.Iio ((d[d.length - 1]).stop + tol) ∩ Set.Ici t ∈ 𝓝[Set.Ici t] t :=
          Filter.inter_mem (nhdsWithin_le_nhds (Iio_mem_nhds h3)) self_mem_nhdsWithin
        filter_upwards [hmem] with s hs
        have h7 : t ≤ s := hs.2
        rw [axis_closed ax h (hle s hs.1) hi (h4.trans h7) (Or.inr h5)]
        rfl
    · rw [hv, e]; rfl

/-! ### Reading -/

theorem readRows_ok {a b : ℝ} : ∀ (rows data out : List (Row V)), (∀ r ∈ rows, a ≤ r.stop ∧ r.start ≤ b) →
    readRows a b rows data = .ok out → out = data ++ rows
  | [], data, out, _, h => by
    rw [readRows] at h; cases h; simp
  | r :: rows, data, out, hw, h => by
    rw [readRows] at h
    have hr := hw r (List.mem_cons_self ..)
    rw [if_neg (by rintro (h | h) <;> linarith [hr.1, hr.2])] at h
    split at h
    · cases h
    · have := readRows_ok rows (data ++ [r]) out (fun x hx => hw x (List.mem_cons_of_mem _ hx)) h
      simpa using this

theorem readRows_sorted {a b : ℝ} : ∀ (rows data : List (Row V)), (∀ r ∈ rows, a ≤ r.stop ∧ r.start ≤ b) →
    (data ++ rows).Pairwise (fun x y => x.start ≤ y.start) → readRows a b rows data = .ok (data ++ rows)
  | [], data, _, _ => by rw [readRows]; simp
  | r :: rows, data, hw, h => by
    rw [readRows]
    have hr := hw r (List.mem_cons_self ..)
    rw [if_neg (by rintro (h | h) <;> linarith [hr.1, hr.2]), if_neg]
    · rw [readRows_sorted rows (data ++ [r]) (fun x hx => hw x (List.mem_cons_of_mem _ hx)) (by simpa using h)]
      simp
    · rintro ⟨_, l, hl, hlt⟩
      have := (List.pairwise_append.1 h).2.2 l (List.mem_of_getLast? hl) r (List.mem_cons_self ..)
      linarith

theorem filter_within {tstart tstop : ℝ} {file : List (Row V)} (hw : ∀ r ∈ file, r.start ≤ r.stop) :
    ∀ r ∈ (open Classical in file.filter fun r => decide (tstart - 2 * 30 ≤ r.start) && decide (r.stop ≤ tstop + 2 * 30)),
      tstart - 2 * 30 ≤ r.stop ∧ r.start ≤ tstop + 2 * 30 := by
  intro r hr
  rw [List.mem_filter] at hr
  have h1 := hw r hr.1
  simp only [Bool.and_eq_true, decide_eq_true_eq] at hr
  exact ⟨hr.2.1.trans h1, h1.trans hr.2.2⟩

theorem filter_kept (tstart tstop : ℝ) (file : List (Row V)) :
    (open Classical in file.filter fun r => decide (tstart - 2 * 30 ≤ r.start) && decide (r.stop ≤ tstop + 2 * 30)) =
      kept tstart tstop [file] := by
  unfold kept
  rw [List.flatten_cons, List.flatten_nil, List.append_nil]
  refine List.filter_congr fun r _ => ?_
  rw [Bool.decide_and]
  norm_num

theorem kept_cons (tstart tstop : ℝ) (f : List (Row V)) (fs : List (List (Row V))) :
    kept tstart tstop (f :: fs) = kept tstart tstop [f] ++ kept tstart tstop fs := by
  simp [kept]

theorem readFiles_ok (tstart tstop : ℝ) : ∀ (files : List (List (Row V))) (data out : List (Row V)),
    (∀ f ∈ files, ∀ r ∈ f, r.start ≤ r.stop) → readFiles tstart tstop files data = .ok out →
    out = data ++ kept tstart tstop files
  | [], data, out, _, h => by rw [readFiles] at h; cases h; simp [kept]
  | f :: fs, data, out, hw, h => by
    rw [readFiles, Res.bind_eq_ok] at h
    obtain ⟨e, h1, h2⟩ := h
    unfold readFile at h1
    have h3 := readRows_ok _ _ _ (filter_within (hw f (List.mem_cons_self ..))) h1
    rw [filter_kept] at h3
    rw [readFiles_ok tstart tstop fs e out (fun g hg => hw g (List.mem_cons_of_mem _ hg)) h2, h3, kept_cons _ _ f fs,
      List.append_assoc]

theorem readFiles_sorted (tstart tstop : ℝ) : ∀ (files : List (List (Row V))) (data : List (Row V)),
    (∀ f ∈ files, ∀ r ∈ f, r.start ≤ r.stop) →
    (data ++ kept tstart tstop files).Pairwise (fun x y => x.start ≤ y.start) →
    readFiles tstart tstop files data = .ok (data ++ kept tstart tstop files)
  | [], data, _, _ => by rw [readFiles]; simp [kept]
  | f :: fs, data, hw, h => by
    rw [readFiles]
    unfold readFile
    rw [kept_cons _ _ f, ← List.append_assoc] at h ⊢
    rw [readRows_sorted _ _ (filter_within (hw f (List.mem_cons_self ..))), filter_kept, Res.bind_ok,
      readFiles_sorted tstart tstop fs _ (fun g hg => hw g (List.mem_cons_of_mem _ hg)) h]
    rw [filter_kept]
    exact (List.pairwise_append.1 h).1

/-- What is read are the rows of all files, in order, that lie within sixty seconds of the times
selected; if these are in order, and there is one, reading succeeds. -/
theorem C61_read (tstart tstop : ℝ) (files : List (List (Row V))) (hw : ∀ f ∈ files, ∀ r ∈ f, r.start ≤ r.stop) :
    (∀ out, readData tstart tstop files = .ok out → out = kept tstart tstop files ∧ out ≠ []) ∧
    ((kept tstart tstop files).Pairwise (fun x y => x.start ≤ y.start) → kept tstart tstop files ≠ [] →
      readData tstart tstop files = .ok (kept tstart tstop files)) := by
  constructor
  · intro out h
    unfold readData at h
    rw [Res.bind_eq_ok] at h
    obtain ⟨d, h1, h2⟩ := h
    have h3 := readFiles_ok tstart tstop files [] d hw h1
    split at h2
    · cases h2
    · rename_i hd
      cases h2
      exact ⟨by simpa using h3, fun h => hd (by rw [h]; rfl)⟩
  · intro h hne
    unfold readData
    have := readFiles_sorted tstart tstop files [] hw (by simpa using h)
    rw [this, Res.bind_ok, List.nil_append, if_neg (fun h => hne (List.length_eq_zero_iff.1 h))]

/-- If no row is longer than a minute, all rows that overlap the times selected are read. -/
theorem C61_read_all_partial (tstart tstop : ℝ) (files : List (List (Row V)))
    (hw : ∀ f ∈ files, ∀ r ∈ f, r.start ≤ r.stop) (hlen : ∀ f ∈ files, ∀ r ∈ f, r.stop - r.start ≤ 60)
    (out : List (Row V)) (h : readData tstart tstop files = .ok out) :
    ∀ f ∈ files, ∀ r ∈ f, Overlaps tstart tstop r → r ∈ out := by
  intro f hf r hr ⟨h1, h2⟩
  rw [((C61_read tstart tstop files hw).1 out h).1, kept, List.mem_filter]
  refine ⟨List.mem_flatten.2 ⟨f, hf, hr⟩, decide_eq_true ?_⟩
  have := hlen f hf r hr
  exact ⟨by linarith, by linarith⟩

/-- A row longer than that is left out although all of the selected time lies within it. -/
theorem C61_long_violates (r : Row V) (tstart tstop : ℝ) (hw : r.start ≤ r.stop)
    (h : r.start < tstart - 60 ∨ tstop + 60 < r.stop) (hcov : r.start ≤ tstart ∧ tstart ≤ tstop ∧ tstop ≤ r.stop) :
    Overlaps tstart tstop r ∧ readData tstart tstop [[r]] = .throws := by
  refine ⟨⟨by linarith [hcov.1, hcov.2.1], by linarith [hcov.2.2, hcov.2.1]⟩, ?_⟩
  unfold readData readFiles readFile readFiles
  simp only []
  rw [filter_kept]
  have : kept tstart tstop [[r]] = [] := by
    unfold kept
    rw [List.filter_eq_nil_iff]
    intro x hx
    simp only [List.flatten_cons, List.flatten_nil, List.append_nil, List.mem_singleton] at hx
    subst hx
    simp only [decide_eq_true_eq, not_and_or, not_le]
    exact h
  rw [this, readRows, Res.bind_ok, Res.bind_ok]
  rfl

/-- The first two rows may be in the wrong order. -/
theorem C61_order_violates (v : V) :
    ∃ a b : Row V, b.start < a.start ∧ readData 0 100 [[a, b]] = .ok [a, b] := by
  refine ⟨⟨30, 60, 30, v, v⟩, ⟨0, 30, 30, v, v⟩, by norm_num, ?_⟩
  have hk : kept 0 100 [[(⟨30, 60, 30, v, v⟩ : Row V), ⟨0, 30, 30, v, v⟩]] = [⟨30, 60, 30, v, v⟩, ⟨0, 30, 30, v, v⟩] := by
    unfold kept
    rw [List.flatten_cons, List.flatten_nil, List.append_nil, List.filter_eq_self]
    intro x hx
    simp only [List.mem_cons, List.not_mem_nil, or_false] at hx
    rcases hx with rfl | rfl <;> norm_num
  unfold readData readFiles readFile readFiles
  simp only []
  rw [filter_kept, hk, readRows]
  norm_num [readRows, Res.bind_ok]
  intro h
  cases h

/-- A history of two rows meets the hypotheses. -/
example : ∃ d : List (Row (ℝ)), Increasing d ∧ 2 ≤ d.length ∧ axis Row.z d 15 = .ok 1 ∧
    readData 0 60 [d] = .ok d := by
  have hi : Increasing [(⟨0, 30, 30, 1, 1⟩ : Row ℝ), ⟨30, 60, 30, 1, 1⟩] := by
    unfold Increasing; simp
  refine ⟨_, hi, le_rfl, ?_, ?_⟩
  · rw [C61_axis Row.z _ hi 15 (fun l hl => ?_) 0 (by simp) (by norm_num) (Or.inl (by norm_num))]
    · norm_num [between]
    · simp at hl; subst hl; norm_num [tol]
  · have hk : kept 0 60 [[(⟨0, 30, 30, 1, 1⟩ : Row ℝ), ⟨30, 60, 30, 1, 1⟩]] = [⟨0, 30, 30, 1, 1⟩, ⟨30, 60, 30, 1, 1⟩] := by
      unfold kept
      rw [List.flatten_cons, List.flatten_nil, List.append_nil, List.filter_eq_self]
      intro x hx
      simp only [List.mem_cons, List.not_mem_nil, or_false] at hx
      rcases hx with rfl | rfl <;> norm_num
    have := (C61_read 0 60 [[(⟨0, 30, 30, 1, 1⟩ : Row ℝ), ⟨30, 60, 30, 1, 1⟩]] (by simp; norm_num)).2
    rw [hk] at this
    exact this (by simp) (by simp)

end Verif.ScData
