import Verif.LtSum.Props
import Verif.Livetime.Props
set_option linter.unusedSectionVars false
set_option linter.unusedSimpArgs false
set_option linter.unusedVariables false
/-
C106: the sum of the cubes for parts of the time is the cube for all of it.
-/
namespace Verif.LtSum
open Verif Spec MeasureTheory Verif.Livetime Verif.Livetime.Spec

variable {δ : Type}

theorem good_append (start stop : ℝ) (cuts g1 g2 : List (ℝ × ℝ)) :
    good start stop cuts (g1 ++ g2) = good start stop cuts g1 ∪ good start stop cuts g2 := by
  ext t
  simp only [good, Set.mem_union, Set.mem_ofPred_eq, List.mem_append]
  constructor
  · rintro ⟨a, b, c, g, hg | hg, d⟩
    · exact Or.inl ⟨a, b, c, g, hg, d⟩
    · exact Or.inr ⟨a, b, c, g, hg, d⟩
  · rintro (⟨a, b, c, g, hg, d⟩ | ⟨a, b, c, g, hg, d⟩)
    · exact ⟨a, b, c, g, Or.inl hg, d⟩
    · exact ⟨a, b, c, g, Or.inr hg, d⟩

theorem good_finite (start stop : ℝ) (cuts g : List (ℝ × ℝ)) : volume (good start stop cuts g) ≠ ⊤ := by
  have h : good start stop cuts g ⊆ Set.Icc start stop := fun t ht => ⟨ht.1, ht.2.1⟩
  exact ne_top_of_le_ne_top (by rw [Real.volume_Icc]; exact ENNReal.ofReal_ne_top) (measure_mono h)

theorem cuts_meas (cuts : List (ℝ × ℝ)) : MeasurableSet {t : ℝ | ∀ k ∈ cuts, k.1 ≤ t ∧ t ≤ k.2} := by
  induction cuts with
  | nil => simp
  | cons k ks ih =>
    have : {t : ℝ | ∀ c ∈ k :: ks, c.1 ≤ t ∧ t ≤ c.2} = Set.Icc k.1 k.2 ∩ {t : ℝ | ∀ c ∈ ks, c.1 ≤ t ∧ t ≤ c.2} := by
      ext t; simp
    rw [this]
    exact measurableSet_Icc.inter ih

theorem good_meas (start stop : ℝ) (cuts g : List (ℝ × ℝ)) : MeasurableSet (good start stop cuts g) := by
  rw [good_eq]
  refine (union_meas g).inter ?_
  have : {t : ℝ | (∀ k ∈ cuts, k.1 ≤ t ∧ t ≤ k.2) ∧ start ≤ t ∧ t ≤ stop} =
      {t : ℝ | ∀ k ∈ cuts, k.1 ≤ t ∧ t ≤ k.2} ∩ Set.Icc start stop := by
    ext t; simp
  rw [this]
  exact (cuts_meas cuts).inter measurableSet_Icc

theorem fraction_append (start stop : ℝ) (cuts : List (ℝ × ℝ)) {g1 g2 : List (ℝ × ℝ)} (h : Ordered (g1 ++ g2)) :
    fraction start stop cuts (g1 ++ g2) = fraction start stop cuts g1 + fraction start stop cuts g2 := by
  have hd : AEDisjoint volume (good start stop cuts g1) (good start stop cuts g2) := by
    have hsub : good start stop cuts g1 ∩ good start stop cuts g2 ⊆ ((g2.map Prod.fst).toFinset : Set ℝ) := by
      rintro t ⟨⟨-, -, -, a, ha, ha1, ha2⟩, ⟨-, -, -, b, hb, hb1, hb2⟩⟩
      have := (List.pairwise_append.1 h.2).2.2 a ha b hb
      have e : t = b.1 := le_antisymm (ha2.trans this) hb1
      simp only [Finset.mem_coe, List.mem_toFinset, List.mem_map]
      exact ⟨b, hb, e.symm⟩
    refine measure_mono_null hsub ?_
    exact (Finset.finite_toSet (g2.map Prod.fst).toFinset).measure_zero volume
  unfold fraction
  rw [good_append, measure_union₀ (good_meas _ _ _ _).nullMeasurableSet hd,
    ENNReal.toReal_add (good_finite _ _ _ _) (good_finite _ _ _ _), add_div]

theorem Ordered.left {g1 g2 : List (ℝ × ℝ)} (h : Ordered (g1 ++ g2)) : Ordered g1 :=
  ⟨fun g hg => h.1 g (List.mem_append_left _ hg), (List.pairwise_append.1 h.2).1⟩

theorem Ordered.right {g1 g2 : List (ℝ × ℝ)} (h : Ordered (g1 ++ g2)) : Ordered g2 :=
  ⟨fun g hg => h.1 g (List.mem_append_right _ hg), (List.pairwise_append.1 h.2).2.1⟩

/-- The file was made for these good time intervals from these spacecraft data
(`LikeExposure::load`): `n` pixels, `m` bins of the inclination; `w i j` is the share of a pointing that
falls in a cell. -/
def Made (w : Nat → Nat → δ → ℝ) (n m : Nat) (cuts gtis : List (ℝ × ℝ)) (rows : List (Row δ)) (f : LtFile) : Prop :=
  ∃ fills, load cuts gtis rows = .ok fills ∧
    f.main.rows = (List.range n).map (fun i => (List.range m).map fun j => (fills.map fun x => w i j x.dir * x.time).sum) ∧
    f.weighted.rows =
      (List.range n).map (fun i => (List.range m).map fun j => (fills.map fun x => w i j x.dir * x.weighted).sum)

theorem at2_table (n m : Nat) (v : Nat → Nat → ℝ) (i j : Nat) :
    at2 ((List.range n).map fun i => (List.range m).map fun j => v i j) i j = if i < n ∧ j < m then v i j else 0 := by
  unfold at2
  by_cases hi : i < n
  · by_cases hj : j < m
    · simp [hi, hj]
    · simp [hi, hj]
  · simp [hi]

theorem lengths_table (n m : Nat) (v : Nat → Nat → ℝ) :
    ((List.range n).map fun i => (List.range m).map fun j => v i j).map List.length = List.replicate n m := by
  rw [List.map_map]
  apply List.ext_getElem
  · simp
  · intro i h1 h2; simp

/-- The general form: whenever the contents add up. -/
theorem made_sum {n m : Nat} {a b c s : Tab} {u v x : Nat → Nat → ℝ}
    (ha : a.rows = (List.range n).map fun i => (List.range m).map fun j => u i j)
    (hb : b.rows = (List.range n).map fun i => (List.range m).map fun j => v i j)
    (hc : c.rows = (List.range n).map fun i => (List.range m).map fun j => x i j)
    (hx : ∀ i j, x i j = u i j + v i j) (hs : IsSum [a, b] s) : s.rows = c.rows := by
  apply at2_eq
  · rw [← (hs.1 a (by simp)).1, ha, hc, lengths_table, lengths_table]
  · intro i j
    have := hs.2.1 i j
    rw [cell_eq] at this
    rw [this]
    simp only [List.map_cons, List.map_nil, List.sum_cons, List.sum_nil, cell_eq, add_zero]
    rw [ha, hb, hc, at2_table, at2_table, at2_table, hx]
    split <;> simp

theorem isSumFile_pair {fs : FS} {c : Call} {a b : LtFile} (h : Opens fs c.list [a, b]) (ho : c.out ∉ c.list)
    (hw : Free fs c) (hc : Compatible a b) :
    ∃ o, (run fs c).1 c.out = some o ∧ IsSumFile [a, b] o := by
  obtain ⟨-, h1, -⟩ := C106_sum_partial h ho hw (by intro g hg; rw [List.mem_singleton.1 hg]; exact hc)
  exact h1

/-- **C106, times.**  The sum of the cubes for two sets of good time intervals is the cube for all of
them. -/
theorem C106_times_partial {fs : FS} {c : Call} {a b all : LtFile} (h : Opens fs c.list [a, b]) (ho : c.out ∉ c.list)
    (hw : Free fs c) (hc : Compatible a b) (w : Nat → Nat → δ → ℝ) (n m : Nat) (cuts g1 g2 : List (ℝ × ℝ))
    (rows : List (Row δ)) (hg : Ordered (g1 ++ g2)) (h1 : g1 ≠ []) (h2 : g2 ≠ []) (hr : Livetime.Sorted rows)
    (ha : Made w n m cuts g1 rows a) (hb : Made w n m cuts g2 rows b) (hall : Made w n m cuts (g1 ++ g2) rows all) :
    ∃ o, (run fs c).1 c.out = some o ∧ o.main.rows = all.main.rows ∧ o.weighted.rows = all.weighted.rows := by
  obtain ⟨o, k1, k2⟩ := isSumFile_pair h ho hw hc
  refine ⟨o, k1, ?_⟩
  obtain ⟨fa, a1, a2, a3⟩ := ha
  obtain ⟨fb, b1, b2, b3⟩ := hb
  obtain ⟨fc, c1, c2, c3⟩ := hall
  obtain ⟨fa', p1, p2, p3⟩ := C60_load cuts g1 rows (Ordered.left hg) h1 hr
  obtain ⟨fb', q1, q2, q3⟩ := C60_load cuts g2 rows (Ordered.right hg) h2 hr
  obtain ⟨fc', r1, r2, r3⟩ := C60_load cuts (g1 ++ g2) rows hg (by simp [h1]) hr
  cases a1.symm.trans p1
  cases b1.symm.trans q1
  cases c1.symm.trans r1
  refine ⟨made_sum a2 b2 c2 (fun i j => ?_) k2.2.1, made_sum a3 b3 c3 (fun i j => ?_) k2.2.2⟩
  · rw [p2, q2, r2, ← List.sum_map_add]
    congr 1
    apply List.map_congr_left
    intro r _
    rw [fraction_append _ _ _ hg]; ring
  · rw [p3, q3, r3, ← List.sum_map_add]
    congr 1
    apply List.map_congr_left
    intro r _
    rw [fraction_append _ _ _ hg]; ring

/-- **C106, spacecraft data.**  The sum of the cubes for two consecutive parts of the spacecraft data is
the cube for all of them. -/
theorem C106_pointings_partial {fs : FS} {c : Call} {a b all : LtFile} (h : Opens fs c.list [a, b]) (ho : c.out ∉ c.list)
    (hw : Free fs c) (hc : Compatible a b) (w : Nat → Nat → δ → ℝ) (n m : Nat) (cuts gtis : List (ℝ × ℝ))
    (rows1 rows2 : List (Row δ)) (hg : Ordered gtis) (hne : gtis ≠ []) (hr : Livetime.Sorted (rows1 ++ rows2))
    (ha : Made w n m cuts gtis rows1 a) (hb : Made w n m cuts gtis rows2 b) (hall : Made w n m cuts gtis (rows1 ++ rows2) all) :
    ∃ o, (run fs c).1 c.out = some o ∧ o.main.rows = all.main.rows ∧ o.weighted.rows = all.weighted.rows := by
  obtain ⟨o, k1, k2⟩ := isSumFile_pair h ho hw hc
  refine ⟨o, k1, ?_⟩
  obtain ⟨fa, a1, a2, a3⟩ := ha
  obtain ⟨fb, b1, b2, b3⟩ := hb
  obtain ⟨fc, c1, c2, c3⟩ := hall
  have hr1 : Livetime.Sorted rows1 :=
    ⟨fun x hx => hr.1 x (List.mem_append_left _ hx), (List.pairwise_append.1 hr.2).1⟩
  have hr2 : Livetime.Sorted rows2 :=
    ⟨fun x hx => hr.1 x (List.mem_append_right _ hx), (List.pairwise_append.1 hr.2).2.1⟩
  obtain ⟨fa', p1, p2, p3⟩ := C60_load cuts gtis rows1 hg hne hr1
  obtain ⟨fb', q1, q2, q3⟩ := C60_load cuts gtis rows2 hg hne hr2
  obtain ⟨fc', r1, r2, r3⟩ := C60_load cuts gtis (rows1 ++ rows2) hg hne hr
  cases a1.symm.trans p1
  cases b1.symm.trans q1
  cases c1.symm.trans r1
  refine ⟨made_sum a2 b2 c2 (fun i j => ?_) k2.2.1, made_sum a3 b3 c3 (fun i j => ?_) k2.2.2⟩
  · rw [p2, q2, r2, List.map_append, List.sum_append]
  · rw [p3, q3, r3, List.map_append, List.sum_append]

/-- C106 is violated for cubes whose times overlap: the livetime counts twice, and nothing is said.  The
sum of a file and a copy of it, at another place, has twice the livetime. -/
theorem C106_overlap_violates {fs : FS} {c : Call} {a : LtFile} (h : Opens fs c.list [a, a]) (ho : c.out ∉ c.list)
    (hw : Free fs c) :
    ∃ o, run fs c = (put fs c.out o, .ok ()) ∧ ∀ i j, cell o.main i j = 2 * cell a.main i j := by
  obtain ⟨o, h1, h2⟩ := run_ok h ho hw (by
    intro g hg
    rw [List.mem_singleton.1 hg]
    exact ⟨rfl, Alike.refl _, Alike.refl _⟩)
  refine ⟨o, h1, fun i j => ?_⟩
  rw [h2.2.1.2.1 i j]
  simp
  ring

/-- The hypotheses can be met: two intervals and two pointings, of which the second is only in the
second interval. -/
example : ∃ (w : Nat → Nat → Unit → ℝ) (g1 g2 : List (ℝ × ℝ)) (rows1 rows2 : List (Row Unit)) (a b all : LtFile),
    Ordered (g1 ++ g2) ∧ g1 ≠ [] ∧ g2 ≠ [] ∧ Livetime.Sorted (rows1 ++ rows2) ∧ rows1 ≠ [] ∧ rows2 ≠ [] ∧ Compatible a b ∧
      Made w 1 1 [] g1 (rows1 ++ rows2) a ∧ Made w 1 1 [] g2 (rows1 ++ rows2) b ∧
      Made w 1 1 [] (g1 ++ g2) (rows1 ++ rows2) all := by
  have ho : Ordered ([((0 : ℝ), (1 : ℝ))] ++ [((2 : ℝ), (4 : ℝ))]) := by
    refine ⟨?_, ?_⟩
    · intro g hg
      simp only [List.cons_append, List.nil_append, List.mem_cons, List.not_mem_nil, or_false] at hg
      rcases hg with rfl | rfl <;> norm_num
    · simp
  have hs : Livetime.Sorted ([(⟨0, 2, 2, ()⟩ : Row Unit)] ++ [⟨2, 4, 1, ()⟩]) := by
    refine ⟨?_, ?_⟩
    · intro g hg
      simp only [List.cons_append, List.nil_append, List.mem_cons, List.not_mem_nil, or_false] at hg
      rcases hg with rfl | rfl <;> norm_num
    · simp
  obtain ⟨fa, p1, -⟩ := C60_load [] [((0 : ℝ), (1 : ℝ))] _ (Ordered.left ho) (by simp) hs
  obtain ⟨fb, q1, -⟩ := C60_load [] [((2 : ℝ), (4 : ℝ))] _ (Ordered.right ho) (by simp) hs
  obtain ⟨fc, r1, -⟩ := C60_load [] ([((0 : ℝ), (1 : ℝ))] ++ [((2 : ℝ), (4 : ℝ))]) _ ho (by simp) hs
  refine ⟨fun _ _ _ => 1, _, _, _, _, ⟨[], ⟨_, 0, 1, none⟩, ⟨_, 0, 1, none⟩⟩, ⟨[], ⟨_, 2, 4, none⟩, ⟨_, 2, 4, none⟩⟩,
    ⟨[], ⟨_, 0, 4, none⟩, ⟨_, 0, 4, none⟩⟩, ho, by simp, by simp, hs, by simp, by simp, ?_, ⟨fa, p1, rfl, rfl⟩,
    ⟨fb, q1, rfl, rfl⟩, ⟨fc, r1, rfl, rfl⟩⟩
  exact ⟨rfl, ⟨by simp, rfl⟩, ⟨by simp, rfl⟩⟩

end Verif.LtSum
