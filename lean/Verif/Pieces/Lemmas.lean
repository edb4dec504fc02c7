import Verif.Pieces.Model
import Verif.Pieces.Spec
import Verif.Vec
import Verif.Spectra.Lemmas
import Mathlib.Algebra.BigOperators.Group.Finset.Basic
import Mathlib.Algebra.BigOperators.Intervals
import Mathlib.Topology.Algebra.Monoid
import Mathlib.Topology.Order.Lattice
set_option linter.unusedSimpArgs false
set_option linter.unusedVariables false
/-
Closed form of a function made of power laws, and the segments found by `upper_bound`.
-/
namespace Verif.Pieces
open Verif.Spectra Verif.Vec

variable {b : List ℝ} {x : ℝ}

/-- The energy lies in the (closed) range number `J`. -/
def InSeg (b : List ℝ) (J : Nat) (x : ℝ) : Prop :=
  (∀ i < J, val b i ≤ x) ∧ ∀ i, J ≤ i → i < b.length → x ≤ val b i

theorem mono (h : Increasing b) {i j : Nat} (hij : i ≤ j) (hj : j < b.length) : val b i ≤ val b j := by
  rcases Nat.eq_or_lt_of_le hij with e | e
  · rw [e]
  · rw [val_lt hj, val_lt (e.trans hj)]
    exact (List.pairwise_iff_getElem.mp h.1 i j (e.trans hj) hj e).le

theorem mono_lt (h : Increasing b) {i j : Nat} (hij : i < j) (hj : j < b.length) : val b i < val b j := by
  rw [val_lt hj, val_lt (hij.trans hj)]
  exact List.pairwise_iff_getElem.mp h.1 i j (hij.trans hj) hj hij

theorem bpos (h : Increasing b) {i : Nat} (hi : i < b.length) : 0 < val b i := h.2 _ (val_mem hi)

theorem upperBound_le (b : List ℝ) (x : ℝ) : upperBound b x ≤ b.length := by
  unfold upperBound; exact List.findIdx_le_length

theorem upperBound_below {i : Nat} (hi : i < upperBound b x) : val b i ≤ x := by
  have hl : i < b.length := hi.trans_le (upperBound_le b x)
  rw [val_lt hl]
  have := List.not_of_lt_findIdx hi
  simpa using this

theorem upperBound_above (h : Increasing b) {i : Nat} (hi : upperBound b x ≤ i) (hl : i < b.length) : x < val b i := by
  have hk : upperBound b x < b.length := hi.trans_lt hl
  refine lt_of_lt_of_le ?_ (mono h hi hl)
  rw [val_lt hk]
  have := List.findIdx_getElem (w := hk)
  exact of_decide_eq_true this

theorem inSeg_upper (h : Increasing b) : InSeg b (upperBound b x) x :=
  ⟨fun i hi => upperBound_below hi, fun i hi hl => (upperBound_above h hi hl).le⟩

/-- `upper_bound` is determined by what it separates. -/
theorem upperBound_eq (h : Increasing b) {k : Nat} (hk : k ≤ b.length) (h1 : ∀ i < k, val b i ≤ x)
    (h2 : k < b.length → x < val b k) : upperBound b x = k := by
  rcases Nat.lt_trichotomy (upperBound b x) k with h3 | h3 | h3
  · exact absurd (h1 _ h3) (upperBound_above h le_rfl (h3.trans_le hk)).not_ge
  · exact h3
  · exact absurd (h2 (h3.trans_le (upperBound_le b x))) (upperBound_below h3).not_gt

/-- How far, in the logarithm, the energy has gone through range `j`. -/
noncomputable def ell (b : List ℝ) (x : ℝ) (j : Nat) : ℝ :=
  if j = 0 then Real.log (min x (val b 0) / val b 0)
  else if j < b.length then Real.log (max (val b (j - 1)) (min x (val b j)) / val b (j - 1))
  else Real.log (max (val b (j - 1)) x / val b (j - 1))

/-- The closed form: slope times way, added over the ranges. -/
noncomputable def shape (b : List ℝ) (g : Nat → ℝ) (x : ℝ) : ℝ :=
  Real.exp (∑ j ∈ Finset.range (b.length + 1), g j * ell b x j)

theorem ell_seg (h : Increasing b) (hb : b ≠ []) (hx : 0 < x) {J j : Nat} (hJ : J ≤ b.length) (hs : InSeg b J x)
    (hj : j ≤ b.length) :
    ell b x j = if j < J then Real.log (val b j) - Real.log (val b (j - 1))
      else if j = J then Real.log x - Real.log (val b (J - 1)) else 0 := by
  have hn : 0 < b.length := List.length_pos_iff.mpr hb
  have h0 := bpos h hn
  by_cases j0 : j = 0
  · subst j0
    simp only [ell, if_pos]
    by_cases J0 : 0 < J
    · rw [if_pos J0, min_eq_right (hs.1 0 J0), div_self h0.ne']; simp
    · have : J = 0 := by omega
      subst this
      rw [min_eq_left (hs.2 0 le_rfl hn), if_neg (by omega), if_pos rfl, Real.log_div hx.ne' h0.ne']
  · have hp := bpos h (i := j - 1) (by omega)
    simp only [ell, if_neg j0]
    rcases Nat.lt_trichotomy j J with h1 | h1 | h1
    · rw [if_pos h1, if_pos (show j < b.length by omega), min_eq_right (hs.1 j h1),
        max_eq_right (mono h (by omega) (by omega)), Real.log_div (bpos h (by omega)).ne' hp.ne']
    · subst h1
      rw [if_neg (lt_irrefl j), if_pos rfl]
      by_cases hl : j < b.length
      · rw [if_pos hl, min_eq_left (hs.2 j le_rfl hl), max_eq_right (hs.1 _ (by omega)), Real.log_div hx.ne' hp.ne']
      · rw [if_neg hl, max_eq_right (hs.1 _ (by omega)), Real.log_div hx.ne' hp.ne']
    · rw [if_neg (show ¬ j < J by omega), if_neg (show ¬ j = J by omega)]
      have hle : x ≤ val b (j - 1) := hs.2 _ (by omega) (by omega)
      by_cases hl : j < b.length
      · rw [if_pos hl, max_eq_left ((min_le_left _ _).trans hle), div_self hp.ne', Real.log_one]
      · rw [if_neg hl, max_eq_left hle, div_self hp.ne', Real.log_one]

/-- The exponent of the closed form in range `J`. -/
theorem sum_seg (h : Increasing b) (hb : b ≠ []) (hx : 0 < x) {J : Nat} (hJ : J ≤ b.length) (hs : InSeg b J x)
    (g : Nat → ℝ) :
    ∑ j ∈ Finset.range (b.length + 1), g j * ell b x j =
      ∑ j ∈ Finset.range J, g j * (Real.log (val b j) - Real.log (val b (j - 1))) +
        g J * (Real.log x - Real.log (val b (J - 1))) := by
  have h1 : ∑ j ∈ Finset.range (J + 1), g j * ell b x j = ∑ j ∈ Finset.range (b.length + 1), g j * ell b x j := by
    refine Finset.sum_subset (by intro j; simp only [Finset.mem_range]; omega) fun j hj hn => ?_
    simp only [Finset.mem_range] at hj hn
    rw [ell_seg h hb hx hJ hs (by omega), if_neg (by omega), if_neg (by omega), mul_zero]
  rw [← h1, Finset.sum_range_succ, ell_seg h hb hx hJ hs hJ, if_neg (lt_irrefl J), if_pos rfl]
  congr 1
  refine Finset.sum_congr rfl fun j hj => ?_
  simp only [Finset.mem_range] at hj
  rw [ell_seg h hb hx hJ hs (by omega), if_pos hj]

theorem shape_seg (h : Increasing b) (hb : b ≠ []) (hx : 0 < x) {J : Nat} (hJ : J ≤ b.length) (hs : InSeg b J x)
    (g : Nat → ℝ) : shape b g x =
      Real.exp (∑ j ∈ Finset.range J, g j * (Real.log (val b j) - Real.log (val b (j - 1))) -
        g J * Real.log (val b (J - 1))) * x ^ g J := by
  rw [shape, sum_seg h hb hx hJ hs, Real.rpow_def_of_pos hx, ← Real.exp_add]
  congr 1; ring

theorem inSeg_below (h : Increasing b) {e : ℝ} (he : b.head? = some e) (hx : x ≤ e) : InSeg b 0 x := by
  refine ⟨fun i hi => absurd hi (by omega), fun i _ hi => hx.trans ?_⟩
  cases b with
  | nil => cases he
  | cons a l =>
    obtain rfl : a = e := by simpa using he
    exact mono h (Nat.zero_le i) hi

theorem val_some {j : Nat} {a : ℝ} (h : b[j]? = some a) : val b j = a ∧ j < b.length := by
  obtain ⟨hl, rfl⟩ := List.getElem?_eq_some_iff.mp h
  exact ⟨val_lt hl, hl⟩

theorem inSeg_between (h : Increasing b) {j : Nat} {a c : ℝ} (ha : b[j]? = some a) (hc : b[j + 1]? = some c)
    (hx : x ∈ Set.Icc a c) : InSeg b (j + 1) x := by
  obtain ⟨ha', hla⟩ := val_some ha
  obtain ⟨hc', hlc⟩ := val_some hc
  refine ⟨fun i hi => ?_, fun i hi hl => ?_⟩
  · exact (mono h (by omega) hla).trans (ha'.le.trans hx.1)
  · exact hx.2.trans (hc'.ge.trans (mono h hi hl))

theorem inSeg_above (h : Increasing b) {e : ℝ} (he : b.getLast? = some e) (hx : e ≤ x) : InSeg b b.length x := by
  have hne : b ≠ [] := by rintro rfl; cases he
  have hl : val b (b.length - 1) = e := by
    have : b[b.length - 1]? = some e := by rw [← he, List.getLast?_eq_getElem?]
    exact (val_some this).1
  have hn := List.length_pos_iff.mpr hne
  exact ⟨fun i hi => (mono h (by omega) (by omega)).trans (hl.le.trans hx), fun i h1 h2 => absurd h1 (by omega)⟩

/-- The closed form is made of power laws. -/
theorem pieces_shape (h : Increasing b) (hb : b ≠ []) (N : ℝ) (g : Nat → ℝ) :
    PowerPieces b g (fun x => N * shape b g x) := by
  have key : ∀ (S : Set ℝ) (J : Nat), J ≤ b.length → (∀ x ∈ S, InSeg b J x) →
      PowerOn S (g J) (fun x => N * shape b g x) := by
    intro S J hJ hS
    refine ⟨N * Real.exp (∑ j ∈ Finset.range J, g j * (Real.log (val b j) - Real.log (val b (j - 1))) -
        g J * Real.log (val b (J - 1))), fun x hx h0 => ?_⟩
    simp only [shape_seg h hb h0 hJ (hS x hx)]; ring
  constructor
  · intro e he; exact key _ 0 (Nat.zero_le _) fun x hx => inSeg_below h he hx
  · intro j a c ha hc
    exact key _ (j + 1) (val_some hc).2.le fun x hx => inSeg_between h ha hc hx
  · intro e he; exact key _ _ le_rfl fun x hx => inSeg_above h he hx

theorem shape_first (h : Increasing b) (hb : b ≠ []) (g : Nat → ℝ) : shape b g (val b 0) = 1 := by
  have hn : 0 < b.length := List.length_pos_iff.mpr hb
  rw [shape, sum_seg h hb (bpos h hn) (Nat.zero_le _) ⟨fun i hi => absurd hi (by omega), fun i _ hi => mono h (Nat.zero_le i) hi⟩]
  simp

theorem ell_continuousAt (h : Increasing b) (hb : b ≠ []) (hx : 0 < x) {j : Nat} (hj : j ≤ b.length) :
    ContinuousAt (fun y => ell b y j) x := by
  have hn : 0 < b.length := List.length_pos_iff.mpr hb
  have h0 := bpos h hn
  unfold ell
  by_cases j0 : j = 0
  · simp only [if_pos j0]
    refine ContinuousAt.log ?_ (div_pos (lt_min hx h0) h0).ne'
    exact (continuousAt_id.min continuousAt_const).div_const _
  · have hp := bpos h (i := j - 1) (by omega)
    simp only [if_neg j0]
    by_cases hl : j < b.length
    · simp only [if_pos hl]
      refine ContinuousAt.log ?_ (div_pos (lt_max_of_lt_left hp) hp).ne'
      exact (continuousAt_const.max (continuousAt_id.min continuousAt_const)).div_const _
    · simp only [if_neg hl]
      refine ContinuousAt.log ?_ (div_pos (lt_max_of_lt_left hp) hp).ne'
      exact (continuousAt_const.max continuousAt_id).div_const _

theorem shape_continuousAt (h : Increasing b) (hb : b ≠ []) (hx : 0 < x) (g : Nat → ℝ) :
    ContinuousAt (shape b g) x := by
  unfold shape
  refine ContinuousAt.rexp ?_
  refine tendsto_finsetSum _ fun j hj => ?_
  simp only [Finset.mem_range] at hj
  exact ContinuousAt.mul continuousAt_const (ell_continuousAt h hb hx (by omega))

/-- There is one function made of these power laws with a given value at the first energy. -/
theorem pieces_eq (h : Increasing b) (hb : b ≠ []) {g : Nat → ℝ} {f : ℝ → ℝ} (hf : PowerPieces b g f) (hx : 0 < x) :
    f x = f (val b 0) * shape b g x := by
  have hn : 0 < b.length := List.length_pos_iff.mpr hb
  have key : ∀ J, J ≤ b.length → ∀ y, 0 < y → InSeg b J y → f y = f (val b 0) *
      Real.exp (∑ j ∈ Finset.range J, g j * (Real.log (val b j) - Real.log (val b (j - 1))) +
        g J * (Real.log y - Real.log (val b (J - 1)))) := by
    have pair : ∀ (S : Set ℝ) (e J y : ℝ), PowerOn S J f → y ∈ S → e ∈ S → 0 < y → 0 < e →
        f y = f e * Real.exp (J * (Real.log y - Real.log e)) := by
      rintro S e J y ⟨c, hc⟩ hy he h1 h2
      rw [hc y hy h1, hc e he h2, Real.rpow_def_of_pos h1, Real.rpow_def_of_pos h2, mul_assoc, ← Real.exp_add]
      congr 2; ring
    intro J
    induction J with
    | zero =>
      intro _ y hy hs
      have hh : b.head? = some (val b 0) := by rw [List.head?_eq_getElem?]; exact getElem?_val hn
      rw [pair _ (val b 0) _ y (hf.below _ hh) (hs.2 0 le_rfl hn) (Set.mem_Iic.mpr le_rfl) hy (bpos h hn)]
      simp
    | succ J ih =>
      intro hJ y hy hs
      have hJ' : J < b.length := hJ
      have hp := bpos h hJ'
      have hprev := ih (by omega) (val b J) hp ⟨fun i hi => mono h hi.le hJ', fun i hi hl => mono h hi hl⟩
      have hpo : ∃ S, PowerOn S (g (J + 1)) f ∧ y ∈ S ∧ val b J ∈ S := by
        by_cases hl : J + 1 < b.length
        · exact ⟨_, hf.between J _ _ (getElem?_val hJ') (getElem?_val hl), ⟨hs.1 J (by omega), hs.2 _ le_rfl hl⟩,
            ⟨le_rfl, mono h (by omega) hl⟩⟩
        · have e : b.length = J + 1 := by omega
          have hlast : b.getLast? = some (val b J) := by
            rw [List.getLast?_eq_getElem?, e]; exact getElem?_val hJ'
          have := hf.above _ hlast
          rw [e] at this
          exact ⟨_, this, hs.1 J (by omega), Set.mem_Ici.mpr le_rfl⟩
      obtain ⟨S, h1, h2, h3⟩ := hpo
      rw [pair S (val b J) _ y h1 h2 h3 hy hp, hprev, Finset.sum_range_succ, mul_assoc, ← Real.exp_add]
      congr 2
  rw [shape, sum_seg h hb hx (upperBound_le b x) (inSeg_upper h)]
  exact key _ (upperBound_le b x) x hx (inSeg_upper h)

theorem pieces_continuousAt (h : Increasing b) (hb : b ≠ []) {g : Nat → ℝ} {f : ℝ → ℝ} (hf : PowerPieces b g f)
    (hx : 0 < x) : ContinuousAt f x := by
  have : ContinuousAt (fun y => f (val b 0) * shape b g y) x :=
    continuousAt_const.mul (shape_continuousAt h hb hx g)
  refine this.congr ?_
  filter_upwards [lt_mem_nhds hx] with y hy
  exact (pieces_eq h hb hf hy).symm

end Verif.Pieces
