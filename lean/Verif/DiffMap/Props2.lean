import Verif.DiffMap.Props
set_option linter.unusedSectionVars false
set_option linter.unusedSimpArgs false
set_option linter.unusedVariables false
/-
C91: the map of a diffuse source in healpix pixels.
-/
namespace Verif.DiffMap
open Verif Verif.Vec Real Spec

/-- C91.  The resampling factor of a healpix map is the smallest power of two that is not below the
requested one. -/
theorem C91_power (r : Nat) : ∃ e, pow2 r 1 Nat.one_pos = 2 ^ e ∧ r ≤ 2 ^ e ∧ ∀ e', r ≤ 2 ^ e' → e ≤ e' := by
  have key : ∀ (k t : Nat) (ht : 0 < t) (d : Nat), r - t ≤ k → t = 2 ^ d → (∀ e', r ≤ 2 ^ e' → d ≤ e') →
      ∃ e, pow2 r t ht = 2 ^ e ∧ r ≤ 2 ^ e ∧ ∀ e', r ≤ 2 ^ e' → e ≤ e' := by
    intro k
    induction k with
    | zero =>
      intro t ht d h1 h2 h3
      rw [pow2, if_neg (by omega)]
      exact ⟨d, h2, by omega, h3⟩
    | succ k ih =>
      intro t ht d h1 h2 h3
      rw [pow2]
      by_cases h : t < r
      · rw [if_pos h]
        refine ih (t * 2) _ (d + 1) (by omega) (by rw [h2, pow_succ]) fun e' he' => ?_
        have := h3 e' he'
        rcases Nat.eq_or_lt_of_le this with rfl | h4
        · omega
        · exact h4
      · rw [if_neg h]
        exact ⟨d, h2, by omega, h3⟩
  exact key r 1 Nat.one_pos 0 (by omega) (by simp) (fun _ _ => Nat.zero_le _)

/-- C91.  In a healpix map every value is that of its own pixel of the sky and of its own energy, times
the solid angle, for any range of energies. -/
theorem C91_values (ne nPix : Nat) (out : Nat → Nat → ℝ) (glo : Nat → Nat) (solidAngle : ℝ) (kmin top : Nat) (kmax : ℤ)
    (ht : (if kmax < 0 then ne else kmax.toNat) = top) (hk : kmin ≤ top) (hne : top ≤ ne) :
    ∃ m, diffuseHpx ne nPix out glo solidAngle kmin kmax [] = .ok m ∧ m.length = (top - kmin) * nPix ∧
      ∀ k i, k < top - kmin → i < nPix → m[i + nPix * k]? = some (out (kmin + k) (glo i) * solidAngle) := by
  unfold diffuseHpx
  simp only [ht]
  rw [if_neg (by omega)]
  obtain ⟨s, h1, h2, h3, h4⟩ := loop_inv (lo := kmin) (n := top - kmin)
    (s := (vresize ([] : List ℝ) ((top - kmin) * nPix) 0, 0))
    (body := fun k s => if ne ≤ k then Res.ub else
      loop (fun i (s : List ℝ × Nat) => do
        let m ← vset s.1 s.2 (out k (glo i) * solidAngle)
        Res.ok (m, s.2 + 1)) 0 nPix s)
    (fun k s => s.1.length = (top - kmin) * nPix ∧ s.2 = (k - kmin) * nPix ∧ ∀ k' i, kmin + k' < k → i < nPix →
      val s.1 (k' * nPix + i) = out (kmin + k') (glo i) * solidAngle)
    ⟨by simp, by simp, fun k' i h => absurd h (by omega)⟩
    (by
      rintro k s hk1 hk2 ⟨c1, c2, c3⟩
      rw [if_neg (by omega)]
      obtain ⟨s', d1, d2, d3, d4, d5⟩ := loop_inv (lo := 0) (n := nPix) (s := s)
        (body := fun i (s : List ℝ × Nat) => do
          let m ← vset s.1 s.2 (out k (glo i) * solidAngle)
          Res.ok (m, s.2 + 1))
        (fun i s => s.1.length = (top - kmin) * nPix ∧ s.2 = (k - kmin) * nPix + i ∧ (∀ k' i', kmin + k' < k → i' < nPix →
          val s.1 (k' * nPix + i') = out (kmin + k') (glo i') * solidAngle) ∧ ∀ i', i' < i →
          val s.1 ((k - kmin) * nPix + i') = out k (glo i') * solidAngle)
        ⟨c1, by rw [c2]; simp, c3, fun i' h => absurd h (by omega)⟩
        (by
          rintro i u _ hi ⟨e1, e2, e3, e4⟩
          rw [Nat.zero_add] at hi
          have hlt : u.2 < u.1.length := by rw [e1, e2]; exact idx_lt hi (by omega)
          rw [vset_lt _ _ _ hlt, Res.bind_ok]
          refine ⟨_, rfl, by simpa using e1, by simp only [e2]; omega, fun k' i' h1 h2 => ?_, fun i' h => ?_⟩
          · rw [val_set hlt, if_neg, e3 k' i' h1 h2]
            intro he
            rw [e2] at he
            have := (idx_inj h2 hi he).1
            omega
          · rw [val_set hlt, e2]
            by_cases hii : i' = i
            · subst hii; rw [if_pos rfl]
            · rw [if_neg (by omega), e4 i' (by omega)])
      refine ⟨s', d1, d2, ?_, fun k' i h hi => ?_⟩
      · rw [d3, Nat.zero_add, show k + 1 - kmin = (k - kmin) + 1 by omega, Nat.add_mul, Nat.one_mul]
      · by_cases hkk : kmin + k' < k
        · exact d4 k' i hkk hi
        · have e : k' = k - kmin := by omega
          rw [e, d5 i (by omega), show kmin + (k - kmin) = k by omega])
  rw [h1, Res.bind_ok]
  refine ⟨_, rfl, h2, fun k i hk' hi => ?_⟩
  rw [show i + nPix * k = k * nPix + i by ring, getElem?_val (by rw [h2]; exact idx_lt hi hk'), h4 k i (by omega) hi]

/-- The hypotheses can be met. -/
example : (if (3 : ℤ) < 0 then 5 else (3 : ℤ).toNat) = 3 ∧ 1 ≤ 3 ∧ 3 ≤ 5 := by simp

/-! ### From a projection to healpix -/

/-- C91.  Counting over the whole sky: each healpix pixel holds the sum of the pixels of the input
that fall into it, and nothing is lost. -/
theorem C91_sum (nx ny npix : Nat) (tgt : Nat → Nat → Nat) (v : Nat → Nat → ℝ) (ht : ∀ i j, i < nx → j < ny → tgt i j < npix) :
    ∃ h, fillAll nx ny npix tgt v = .ok h ∧ h.length = npix ∧
      (∀ a < npix, h[a]? = some (∑ i ∈ Finset.range nx, ∑ j ∈ Finset.range ny, if tgt i j = a then v i j else 0)) ∧
      h.sum = ∑ i ∈ Finset.range nx, ∑ j ∈ Finset.range ny, v i j := by
  unfold fillAll
  obtain ⟨h, h1, h2, h3⟩ := loop_inv (lo := 0) (n := nx) (s := List.replicate npix (0 : ℝ))
    (body := fun i h => loop (fun j h => do
      let old ← vget h (tgt i j)
      vset h (tgt i j) (old + v i j)) 0 ny h)
    (fun i h => h.length = npix ∧ ∀ a, val h a = ∑ i' ∈ Finset.range i, ∑ j ∈ Finset.range ny, if tgt i' j = a then v i' j else 0)
    ⟨by simp, fun a => by simp [val, List.getElem?_replicate]; split <;> rfl⟩
    (by
      rintro i w _ hi ⟨e1, e2⟩
      rw [Nat.zero_add] at hi
      obtain ⟨w', f1, f2, f3⟩ := loop_acc (L := npix) (m := w) (lo := 0) (n := ny) (tgt i) (v i) e1
        (body := fun j h => do
          let old ← vget h (tgt i j)
          vset h (tgt i j) (old + v i j))
        (fun j u _ hj hu => by
          have := ht i j hi (by omega)
          exact ⟨this, vadd_ok (by rw [hu]; exact this) _⟩)
      refine ⟨w', f1, f2, fun a => ?_⟩
      rw [f3, e2, Finset.sum_range_succ]
      simp only [Nat.zero_add])
  refine ⟨h, h1, h2, fun a ha => ?_, ?_⟩
  · rw [getElem?_val (by omega), h3, Nat.zero_add]
  · rw [sum_val, h2]
    simp only [h3, Nat.zero_add]
    rw [Finset.sum_comm]
    refine Finset.sum_congr rfl fun i hi => ?_
    rw [Finset.sum_comm]
    refine Finset.sum_congr rfl fun j hj => ?_
    rw [Finset.sum_ite_eq, if_pos (Finset.mem_range.2 (ht i j (Finset.mem_range.1 hi) (Finset.mem_range.1 hj)))]

/-- The hypotheses can be met. -/
example : ∀ i j, i < 3 → j < 4 → (fun i j => (i + j) % 5) i j < 5 := by intro i j _ _; exact Nat.mod_lt _ (by norm_num)

/-- C91 is violated over the whole sky: the values are brightnesses, and they are added without the
ratio of the solid angles.  A constant brightness `c` gives `N c` in a healpix pixel that contains `N`
pixels of the finer input. -/
theorem C91_brightness_violates (nx ny npix : Nat) (tgt : Nat → Nat → Nat) (c : ℝ) (ht : ∀ i j, i < nx → j < ny → tgt i j < npix) :
    ∃ h, fillAll nx ny npix tgt (fun _ _ => c) = .ok h ∧ ∀ a < npix, h[a]? =
      some ((((Finset.range nx ×ˢ Finset.range ny).filter (fun ij => tgt ij.1 ij.2 = a)).card : ℝ) * c) := by
  obtain ⟨h, h1, -, h3, -⟩ := C91_sum nx ny npix tgt (fun _ _ => c) ht
  refine ⟨h, h1, fun a ha => ?_⟩
  rw [h3 a ha, ← Finset.sum_product', ← Finset.sum_filter, Finset.sum_const, nsmul_eq_mul]

/-- The hypotheses can be met: four pixels of the input in each of three. -/
example : ∀ i j, i < 3 → j < 4 → (fun i _ => i) i j < 3 := by intro i j h _; exact h

/-- C91.  For a part of the sky every listed pixel gets the value of the input at its centre, the others
none. -/
theorem C91_listed (npix : Nat) (value : Nat → ℝ) (pixList : List Nat) (hp : ∀ p ∈ pixList, p < npix) :
    ∃ h, fillSome npix value pixList (List.replicate npix 0) = .ok h ∧ h.length = npix ∧
      ∀ a < npix, h[a]? = some (if a ∈ pixList then value a else 0) := by
  have key : ∀ (ps : List Nat) (w : List ℝ), w.length = npix → (∀ p ∈ ps, p < npix) →
      ∃ h, fillSome npix value ps w = .ok h ∧ h.length = npix ∧ ∀ a < npix, val h a = if a ∈ ps then value a else val w a := by
    intro ps
    induction ps with
    | nil => intro w hw _; exact ⟨w, rfl, hw, fun a _ => by simp⟩
    | cons p ps ih =>
      intro w hw hps
      have hpl : p < w.length := by rw [hw]; exact hps p (by simp)
      obtain ⟨h, e1, e2, e3⟩ := ih (w.set p (value p)) (by simpa using hw) (fun q hq => hps q (by simp [hq]))
      refine ⟨h, ?_, e2, fun a ha => ?_⟩
      · unfold fillSome
        rw [vset_lt _ _ _ hpl, Res.bind_ok, e1]
      · rw [e3 a ha, val_set hpl]
        by_cases h1 : a ∈ ps
        · simp [h1]
        · by_cases h2 : a = p
          · subst h2; simp
          · simp [h1, h2]
  obtain ⟨h, e1, e2, e3⟩ := key pixList (List.replicate npix 0) (by simp) hp
  refine ⟨h, e1, e2, fun a ha => ?_⟩
  rw [getElem?_val (by omega), e3 a ha]
  congr 1
  by_cases h' : a ∈ pixList
  · rw [if_pos h', if_pos h']
  · rw [if_neg h', if_neg h', val_lt (by simpa using ha)]
    simp

/-- The hypotheses can be met. -/
example : ∀ p ∈ [3, 5, 8], p < 12 := by decide

/-- C91 is violated: the map made through a projection has an additional factor `(π/180)²`: for the
same brightness `c` in the whole map the counts differ from those of the other ways to make the map, by
a factor of more than a thousand. -/
theorem C91_units_violates (c solidAngle : ℝ) (h : 0 < c * solidAngle) :
    nativeValue c solidAngle = (π / 180) ^ 2 * (c * solidAngle) ∧ 1000 * nativeValue c solidAngle < c * solidAngle := by
  have hpi := pi_pos
  have h4 := pi_le_four
  have e : nativeValue c solidAngle = (π / 180) ^ 2 * (c * solidAngle) := by unfold nativeValue; ring
  refine ⟨e, ?_⟩
  rw [e]
  have : 1000 * (π / 180) ^ 2 < 1 := by
    have : (π / 180) ^ 2 ≤ (4 / 180) ^ 2 := by
      have h0 : 0 ≤ π / 180 := by positivity
      have h1 : π / 180 ≤ 4 / 180 := by linarith
      nlinarith
    nlinarith
  nlinarith

/-- The hypotheses can be met. -/
example : (0 : ℝ) < 2 * 3 := by norm_num

/-! ### Pixel sizes -/

/-- C91.  The pixels of the source's map are combined as far as the limit allows: afterwards they are
not larger than the limit and larger than half of it, and doing it again changes nothing. -/
theorem C91_rebin (minbinsz dataSize size : ℝ) (hs : 0 < size) (hm : size < min minbinsz dataSize) :
    let f := rebinFactor minbinsz dataSize size
    1 ≤ f ∧ f * size ≤ min minbinsz dataSize ∧ min minbinsz dataSize < 2 * (f * size) ∧
      rebinFactor minbinsz dataSize (f * size) = 1 := by
  intro f
  set m := min minbinsz dataSize with hmdef
  have hdiv : 1 < m / size := by rw [lt_div_iff₀ hs]; linarith
  have hfl : (1 : ℤ) ≤ ⌊m / size⌋ := Int.le_floor.2 (by push_cast; exact hdiv.le)
  have hf : f = ⌊m / size⌋.toNat := by
    show rebinFactor _ _ _ = _
    unfold rebinFactor
    simp only
    rw [← hmdef, if_pos hm]
  have hfz : (f : ℤ) = ⌊m / size⌋ := by rw [hf, Int.toNat_of_nonneg (by omega)]
  have hfr : (f : ℝ) = ((⌊m / size⌋ : ℤ) : ℝ) := by exact_mod_cast hfz
  have hle := Int.floor_le (m / size)
  have hlt := Int.lt_floor_add_one (m / size)
  rw [← hfr] at hle hlt
  have h1 : (1 : ℝ) ≤ f := by exact_mod_cast (show 1 ≤ f by omega)
  rw [le_div_iff₀ hs] at hle
  rw [div_lt_iff₀ hs] at hlt
  have h2 : m < 2 * (f * size) := by nlinarith
  refine ⟨by omega, hle, h2, ?_⟩
  unfold rebinFactor
  simp only
  rw [← hmdef]
  split
  · have hfs : 0 < f * size := by positivity
    have : ⌊m / (f * size)⌋ = 1 := by
      rw [Int.floor_eq_iff]
      constructor
      · rw [le_div_iff₀ hfs]; push_cast; linarith
      · rw [div_lt_iff₀ hfs]; push_cast; linarith
    rw [this]
    rfl
  · rfl

/-- The hypotheses can be met: pixels of 0.03 degrees with a limit of 0.1. -/
example : (0 : ℝ) < 0.03 ∧ (0.03 : ℝ) < min 0.1 0.2 := by norm_num

/-- C91.  The resampling factor is at least one, and with resampling the parts of a pixel are smaller
than two pixels of the source's map. -/
theorem C91_resample (factor dataSize modelSize : ℝ) (hd : 0 < dataSize) (hm : 0 < modelSize) :
    resampFactor false factor dataSize modelSize = 1 ∧ 1 ≤ resampFactor true factor dataSize modelSize ∧
      factor ≤ resampFactor true factor dataSize modelSize ∧
      dataSize / resampFactor true factor dataSize modelSize < 2 * modelSize := by
  have e : resampFactor true factor dataSize modelSize = max factor (max 1 (Wcs.trunc (dataSize / modelSize) : ℝ)) := by
    unfold resampFactor; simp
  have h1 : 1 ≤ resampFactor true factor dataSize modelSize := by
    rw [e]; exact le_trans (le_max_left _ _) (le_max_right _ _)
  refine ⟨by unfold resampFactor; simp, h1, by rw [e]; exact le_max_left _ _, ?_⟩
  rw [div_lt_iff₀ (by linarith)]
  have hq : 0 ≤ dataSize / modelSize := by positivity
  have ht : (Wcs.trunc (dataSize / modelSize) : ℝ) ≤ resampFactor true factor dataSize modelSize := by
    rw [e]; exact le_trans (le_max_right _ _) (le_max_right _ _)
  have hlt : dataSize / modelSize < Wcs.trunc (dataSize / modelSize) + 1 := by
    unfold Wcs.trunc
    rw [if_pos hq]
    exact Int.lt_floor_add_one _
  have : dataSize < (resampFactor true factor dataSize modelSize + 1) * modelSize := by
    rw [← div_lt_iff₀ hm]; linarith
  nlinarith

/-- The hypotheses can be met. -/
example : (0 : ℝ) < 1 ∧ (0 : ℝ) < 0.25 := by norm_num

end Verif.DiffMap
