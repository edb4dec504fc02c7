import Verif.DmFit.Lemmas
import Mathlib.Data.List.Chain

set_option linter.unusedSimpArgs false
set_option linter.unusedVariables false

/-!
# Lemmas on the number of photons
-/

namespace Verif.DmFit

open Vec Spec

theorem log10_pos : (0 : ℝ) < Real.log 10 := Real.log_pos (by norm_num)

theorem zc_length : zcentres.length = 252 := by simp [zcentres]

theorem zc_at (i : Int) (h0 : -1 ≤ i) (h1 : i ≤ 250) :
    A zcentres (-1) (i + 10) = ((i : ℝ) + 1 / 2) / 250 := by
  unfold A
  rw [val_lt (by rw [zc_length]; omega)]
  simp only [zcentres, List.getElem_map, List.getElem_range]
  rw [show (((i + 10 - (-1 + 10)).toNat : ℕ) : Int) - 1 = i by omega]
  ring

theorem zc_sorted : zcentres.Pairwise (· < ·) := by
  unfold zcentres
  rw [List.pairwise_map]
  refine List.Pairwise.imp ?_ List.pairwise_lt_range
  intro a b h
  have h' : (((a : Int) - 1 : Int) : ℝ) < (((b : Int) - 1 : Int) : ℝ) := by
    exact_mod_cast (by omega : (a : Int) - 1 < (b : Int) - 1)
  linarith

theorem place_lt {m E : ℝ} (hE : 0 < E) (h : E < m) : place m E < 249.5 := by
  have hm : 0 < m := hE.trans h
  have h1 : Real.log (E / m) < 0 := Real.log_neg (by positivity) (by rw [div_lt_one hm]; exact h)
  have h2 : Real.log (E / m) / Real.log 10 < 0 := div_neg_of_neg_of_pos h1 log10_pos
  unfold place
  norm_num
  linarith

theorem zfind {m E : ℝ} (hE : 0 < E) (h : E < m) :
    (-1 ≤ place m E → -1 ≤ ⌊place m E⌋ ∧ ⌊place m E⌋ ≤ 249 ∧
      ifind ((Real.log (E / m) / Real.log 10 + 10) / 10) zcentres (-1) 249
        = .ok (some (⌊place m E⌋, place m E - ⌊place m E⌋))) ∧
    (place m E < -1 →
      ifind ((Real.log (E / m) / Real.log 10 + 10) / 10) zcentres (-1) 249 = .ok none) := by
  have hp := place_lt hE h
  obtain ⟨f1, f2⟩ := ifind_ok zc_sorted (imin := -1) (imax := 249) (by omega) (by omega)
    (by rw [zc_length]; norm_num) ((Real.log (E / m) / Real.log 10 + 10) / 10)
  have hz : (Real.log (E / m) / Real.log 10 + 10) / 10 = (place m E + 1 / 2) / 250 := by
    unfold place; ring
  have ea := zc_at (-1) (by omega) (by omega)
  have eb := zc_at 250 (by omega) (by omega)
  have ea' : A zcentres (-1) (-1 + 10) = (-1 + 1 / 2) / 250 := by rw [ea]; norm_num
  have eb' : A zcentres (-1) (249 + 10 + 1) = (250 + 1 / 2) / 250 := by
    rw [show (249 + 10 + 1 : Int) = 250 + 10 by norm_num, eb]; norm_num
  rw [ea', eb', hz] at f1 f2
  rw [hz]
  constructor
  · intro h1
    obtain ⟨i, i1, i2, i3, i4, i5⟩ := f1 ⟨by linarith, by linarith⟩
    have e1 := zc_at i i1 (by omega)
    have e2 : A zcentres (-1) (i + 10 + 1) = ((i : ℝ) + 1 + 1 / 2) / 250 := by
      have := zc_at (i + 1) (by omega) (by omega)
      rw [show i + 10 + 1 = i + 1 + 10 by omega, this]; push_cast; ring
    rw [e1] at i3 i5
    rw [e2] at i4 i5
    have hfl : ⌊place m E⌋ = i := by
      rw [Int.floor_eq_iff]
      constructor <;> linarith
    refine ⟨by omega, by omega, ?_⟩
    rw [i5, hfl]
    congr 3
    rw [div_eq_iff (by ring_nf; norm_num)]
    ring
  · intro h1
    exact f2 (Or.inl (by linarith))

theorem mi_sorted : mi.Pairwise (· < ·) := by
  rw [← List.isChain_iff_pairwise]
  unfold mi
  simp only [List.isChain_cons_cons, List.isChain_singleton]
  norm_num

theorem mi_length : mi.length = 24 := rfl

theorem mass_ok (k : Int) (h0 : 1 ≤ k) (h1 : k ≤ 24) : mass k = .ok (A mi 1 (k + 10)) := by
  unfold mass A
  rw [if_neg (by omega), vget_val (by rw [mi_length]; omega)]
  congr 3
  omega

theorem mass_top : mass 24 = .ok 10000 := rfl

theorem mass_none : mass (-5) = .ub := rfl

theorem A_first : A mi 1 (1 + 10) = 2 := rfl

theorem A_last : A mi 1 (23 + 10 + 1) = 10000 := rfl

theorem masses_at (k : Int) (h0 : 1 ≤ k) (h1 : k ≤ 24) :
    masses[(k - 1).toNat]? = some (A mi 1 (k + 10)) := by
  have : masses = mi := rfl
  rw [this, getElem?_val (by rw [mi_length]; omega)]
  unfold A
  congr 3
  omega

theorem mfind (m : ℝ) :
    (2 ≤ m ∧ m < 10000 → ∃ i : Int, 1 ≤ i ∧ i ≤ 23 ∧ A mi 1 (i + 10) ≤ m ∧
      m < A mi 1 (i + 1 + 10) ∧ ∃ p, ifind m mi 1 23 = .ok (some (i, p))) ∧
    (m < 2 ∨ 10000 ≤ m → ifind m mi 1 23 = .ok none) := by
  obtain ⟨f1, f2⟩ := ifind_ok mi_sorted (imin := 1) (imax := 23) (by omega) (by omega)
    (by rw [mi_length]; norm_num) m
  rw [A_first, A_last] at f1 f2
  refine ⟨fun h => ?_, f2⟩
  obtain ⟨i, i1, i2, i3, i4, i5⟩ := f1 h
  exact ⟨i, i1, i2, i3, by rwa [show i + 1 + 10 = i + 10 + 1 by omega], _, i5⟩

/-- The memory holds the table of a file. -/
def Holds (mem : Mem) (file : Lines) : Prop :=
  ∀ s < 12, ∀ k < 24, ∀ i : Int, -1 ≤ i → i ≤ 250 →
    mem (cell i ((k : ℕ) + 1) ((s : ℕ) + 1)) = number file s k i

theorem cell_range {s k : ℕ} {i : Int} (hs : s < 12) (hk : k < 24) (h0 : -1 ≤ i) (h1 : i ≤ 250) :
    0 ≤ cell i (k + 1) (s + 1) ∧ cell i (k + 1) (s + 1) < 72576 := by
  unfold cell
  omega

theorem along_ok {mem : Mem} {file : Lines} (H : Holds mem file) {s k : ℕ} (hs : s < 12)
    (hk : k < 24) {u : ℝ} (h0 : -1 ≤ ⌊u⌋) (h1 : ⌊u⌋ ≤ 249) :
    along mem ⌊u⌋ (u - ⌊u⌋) (k + 1) (s + 1) = .ok (lin (number file s k) u) := by
  unfold along yieldget read
  rw [if_pos (cell_range hs hk h0 (by omega)), if_pos (cell_range hs hk (by omega) (by omega))]
  simp only [Res.bind_ok, Res.pure_eq]
  rw [H s hs k hk _ h0 (by omega), H s hs k hk _ (by omega) (by omega)]
  unfold lin
  congr 1
  ring

theorem across_ok {mem : Mem} {file : Lines} (H : Holds mem file) {s : ℕ} (hs : s < 12)
    {m E : ℝ} (hm : 2 ≤ m) (hm' : m < 10000) (hE : 0 < E) (h : E < m) (h1 : -1 ≤ place m E) :
    ∃ y, across mem m E (s + 1) ⌊place m E⌋ (place m E - ⌊place m E⌋) = .ok y ∧
      Photons file s m E y := by
  obtain ⟨j0, j1, -⟩ := (zfind hE h).1 h1
  obtain ⟨i, i1, i2, i3, i4, p, i5⟩ := (mfind m).1 ⟨hm, hm'⟩
  have w1 := mass_ok i i1 (by omega)
  have w2 := mass_ok (i + 1) (by omega) (by omega)
  obtain ⟨k, rfl⟩ : ∃ k : ℕ, i = k + 1 := ⟨(i - 1).toNat, by omega⟩
  have a1 := along_ok H hs (k := k) (by omega) j0 j1
  have a2 := along_ok H hs (k := k + 1) (by omega) j0 j1
  have v1 := masses_at (k + 1) (by omega) (by omega)
  have v2 := masses_at (k + 1 + 1) (by omega) (by omega)
  rw [show ((k : Int) + 1 - 1).toNat = k by omega] at v1
  rw [show ((k : Int) + 1 + 1 - 1).toNat = k + 1 by omega] at v2
  unfold across
  rw [i5]
  simp only [Res.bind_ok]
  rw [w1, w2, mass_top]
  simp only [Res.bind_ok]
  rw [decide_eq_false (by intro hc; linarith)]
  simp only [Bool.false_eq_true, if_false]
  push_cast at a2
  rw [a1, a2]
  simp only [Res.bind_ok, Res.pure_eq]
  refine ⟨_, rfl, Or.inr ⟨h, h1, k, _, _, v1, v2, i3, i4, _, rfl, ?_⟩⟩
  have hlo : (2 : ℝ) ≤ A mi 1 (k + 1 + 10) := by
    have := A_le mi_sorted (imin := 1) (t := 1 + 10) (u := (k : Int) + 1 + 10) (by omega) (by omega)
      (by rw [mi_length]; omega)
    rwa [A_first] at this
  have hlt := A_lt mi_sorted (imin := 1) (t := (k : Int) + 1 + 10) (u := (k : Int) + 1 + 1 + 10)
    (by omega) (by omega) (by rw [mi_length]; omega)
  generalize A mi 1 (k + 1 + 10) = lo at *
  generalize A mi 1 (k + 1 + 1 + 10) = hi at *
  have d1 : hi - lo ≠ 0 := by linarith
  have d2 : hi + lo ≠ 0 := by linarith
  have d3 : hi ^ 2 - lo ^ 2 ≠ 0 := by
    rw [show hi ^ 2 - lo ^ 2 = (hi - lo) * (hi + lo) by ring]; exact mul_ne_zero d1 d2
  congr 1
  rw [show (hi - lo) * (hi + lo) = hi ^ 2 - lo ^ 2 by ring]
  field_simp
  ring

theorem de_ok {mem : Mem} {file : Lines} (H : Holds mem file) {s : ℕ} (hs : s < 12) {c : Int}
    (hc : chref c = s + 1) {m E : ℝ} (hm : 2 ≤ m) (hm' : m < 10000) (hE : 0 < E) :
    ∃ y, de mem m c E = .ok y ∧ Photons file s m E y := by
  unfold de
  rw [mass_top]
  simp only [Res.bind_ok]
  by_cases h : E < m
  · rw [decide_eq_false (by rintro (h' | h') <;> linarith)]
    simp only [Bool.false_eq_true, if_false]
    obtain ⟨f1, f2⟩ := zfind hE h
    by_cases h1 : -1 ≤ place m E
    · obtain ⟨j0, j1, j2⟩ := f1 h1
      rw [j2]
      simp only [Res.bind_ok]
      rw [if_neg (by omega), hc]
      exact across_ok H hs hm hm' hE h h1
    · rw [f2 (not_le.1 h1)]
      exact ⟨0, rfl, Or.inl ⟨Or.inr (not_le.1 h1), rfl⟩⟩
  · rw [decide_eq_true (Or.inl (not_lt.1 h))]
    exact ⟨0, rfl, Or.inl ⟨Or.inl (not_lt.1 h), rfl⟩⟩

theorem de_ub {mem : Mem} {c : Int} {m E : ℝ} (hm : m < 2 ∨ m = 10000) (hE : 0 < E) (h : E < m)
    (h1 : -1 ≤ place m E) : de mem m c E = .ub := by
  unfold de
  rw [mass_top]
  simp only [Res.bind_ok]
  rw [decide_eq_false (by rintro (h' | h') <;> rcases hm with hm | hm <;> linarith)]
  simp only [Bool.false_eq_true, if_false]
  obtain ⟨j0, j1, j2⟩ := (zfind hE h).1 h1
  rw [j2]
  simp only [Res.bind_ok]
  rw [if_neg (by omega)]
  unfold across
  rw [(mfind m).2 (by rcases hm with hm | hm; exacts [Or.inl hm, Or.inr hm.ge])]
  simp only [Res.bind_ok]
  rw [mass_none]
  rfl

theorem chref_ok {c : Int} (h0 : 1 ≤ c) (h1 : c ≤ 12) :
    ∃ s < 12, chref c = (s : ℕ) + 1 ∧ placeOf c s := by
  have : c = 1 ∨ c = 2 ∨ c = 3 ∨ c = 4 ∨ c = 5 ∨ c = 6 ∨ c = 7 ∨ c = 8 ∨ c = 9 ∨ c = 10 ∨ c = 11 ∨
    c = 12 := by omega
  rcases this with rfl | rfl | rfl | rfl | rfl | rfl | rfl | rfl | rfl | rfl | rfl | rfl
  · exact ⟨8, by omega, rfl, .ee, by omega, rfl, rfl⟩
  · exact ⟨6, by omega, rfl, .mumu, by omega, rfl, rfl⟩
  · exact ⟨3, by omega, rfl, .tautau, by omega, rfl, rfl⟩
  · exact ⟨1, by omega, rfl, .bb, by omega, rfl, rfl⟩
  · exact ⟨2, by omega, rfl, .tt, by omega, rfl, rfl⟩
  · exact ⟨7, by omega, rfl, .gluons, by omega, rfl, rfl⟩
  · exact ⟨4, by omega, rfl, .ww, by omega, rfl, rfl⟩
  · exact ⟨5, by omega, rfl, .zz, by omega, rfl, rfl⟩
  · exact ⟨0, by omega, rfl, .cc, by omega, rfl, rfl⟩
  · exact ⟨9, by omega, rfl, .ss, by omega, rfl, rfl⟩
  · exact ⟨10, by omega, rfl, .uu, by omega, rfl, rfl⟩
  · exact ⟨11, by omega, rfl, .dd, by omega, rfl, rfl⟩

theorem chref_other {c : Int} (h : c < 1 ∨ 12 < c) : chref c = 4 := by
  unfold chref
  simp only [if_neg (show c ≠ 1 by omega), if_neg (show c ≠ 2 by omega),
    if_neg (show c ≠ 3 by omega), if_neg (show c ≠ 4 by omega), if_neg (show c ≠ 5 by omega),
    if_neg (show c ≠ 6 by omega), if_neg (show c ≠ 7 by omega), if_neg (show c ≠ 8 by omega),
    if_neg (show c ≠ 9 by omega), if_neg (show c ≠ 10 by omega), if_neg (show c ≠ 11 by omega),
    if_neg (show c ≠ 12 by omega)]

/-- The number of photons is determined. -/
theorem photons_unique {file : Lines} {s : ℕ} {m E y z : ℝ} (hy : Photons file s m E y)
    (hz : Photons file s m E z) : y = z := by
  rcases hy with ⟨h, rfl⟩ | ⟨h1, h2, k, lo, hi, k1, k2, k3, k4, p, rfl, rfl⟩
  · rcases hz with ⟨h', rfl⟩ | ⟨h1', h2', -⟩
    · rfl
    · rcases h with h | h <;> linarith
  · rcases hz with ⟨h', rfl⟩ | ⟨h1', h2', k', lo', hi', l1, l2, l3, l4, p, rfl, rfl⟩
    · rcases h' with h | h <;> linarith
    · have key : ∀ (a b : ℕ) (la ha lb hb : ℝ), masses[a]? = some la → masses[a + 1]? = some ha →
          masses[b]? = some lb → masses[b + 1]? = some hb → la ≤ m → m < ha → lb ≤ m → m < hb →
          ¬ a < b := by
        intro a b la ha lb hb q1 q2 q3 q4 q5 q6 q7 q8 hab
        obtain ⟨b1, b2⟩ := List.getElem?_eq_some_iff.1 q3
        obtain ⟨a1, a2⟩ := List.getElem?_eq_some_iff.1 q2
        have : ha ≤ lb := by
          rcases eq_or_lt_of_le (show a + 1 ≤ b by omega) with h | h
          · subst h; rw [← a2, ← b2]
          · rw [← a2, ← b2]
            exact (List.pairwise_iff_getElem.1 mi_sorted _ _ a1 b1 h).le
        linarith
      have hk : k = k' := by
        have r1 := key k k' lo hi lo' hi' k1 k2 l1 l2 k3 k4 l3 l4
        have r2 := key k' k lo' hi' lo hi l1 l2 k1 k2 l3 l4 k3 k4
        omega
      subst hk
      rw [k1] at l1
      rw [k2] at l2
      cases l1; cases l2
      rfl

end Verif.DmFit
