import Verif.MapInt.Props
import Verif.MapInt.Lemmas2
import Verif.MapInt.Lemmas3
/-
C68: coarser maps.
-/
set_option linter.unusedSectionVars false
set_option linter.unusedSimpArgs false
set_option linter.unusedVariables false
namespace Verif.MapInt
open Verif.MapInt.Spec
open scoped BigOperators

/-- The result of `rebin`, given that of its loop over the planes. -/
theorem rebin_of_planes (Ω : Omega) (m : WMap) (h : m.Tidy) (he : m.energies ≠ []) (hpos : ∀ e ∈ m.energies, 0 < e)
    {f : Nat} (hf : 0 < f) {avg : Bool} {w : Plane}
    (hw : weights avg (m.solidAngles Ω) m.n1 m.n2 f = .ok w) (F : Nat → Plane)
    (hF : ∀ k < m.energies.length, Shape (F k) (coarse m.n1 f) (coarse m.n2 f))
    (hstep : ∀ k < m.energies.length, ∀ p, m.image[k]? = some p →
      (coarsePlane (m.solidAngles Ω) p m.n1 m.n2 f avg >>= fun q =>
        finish avg q w (coarse m.n1 f) (coarse m.n2 f)) = .ok (F k)) :
    ∃ m', m.rebin Ω f avg = .ok m' ∧ m'.n1 = coarse m.n1 f ∧ m'.n2 = coarse m.n2 f ∧ m'.Tidy ∧
      m'.energies = m.energies ∧ m'.periodic = m.periodic ∧
      m'.crpix = ((m.crpix.1 - 0.5) / f + 0.5, (m.crpix.2 - 0.5) / f + 0.5) ∧
      m'.cdelt = (m.cdelt.1 * f, m.cdelt.2 * f) ∧
      (∀ k < m.energies.length, planeAt m' k = F k) ∧
      ∀ k < m.energies.length, m'.integrals[k]? =
        some (integral (fun i j => Ω m'.crpix m'.cdelt (i + 1) (j + 1)) (planeAt m' k) m'.n1 m'.n2) := by
  obtain ⟨im, i1, i2, i3⟩ := planes_loop h.planes _ F hstep
  simp only [bind_assoc] at i1
  have hc : ∀ p ∈ im, Shape p (coarse m.n1 f) (coarse m.n2 f) := by
    intro p hp
    obtain ⟨k, hk, rfl⟩ := List.mem_iff_getElem.1 hp
    have e := i3 k (by omega)
    rw [List.getElem?_eq_getElem hk] at e
    rw [Option.some.inj e]
    exact hF k (by omega)
  obtain ⟨m', g1, g2, g3, -, -, g6, g7⟩ := C67_integrals_partial Ω { m with
      n1 := coarse m.n1 f, n2 := coarse m.n2 f,
      crpix := ((m.crpix.1 - 0.5) / f + 0.5, (m.crpix.2 - 0.5) / f + 0.5),
      cdelt := (m.cdelt.1 * f, m.cdelt.2 * f),
      image := im, solid := [] } ⟨i2, hc⟩ rfl he hpos
  have g1' := g1
  unfold WMap.computeIntegrals at g1'
  obtain ⟨vs, -, g1'⟩ := Res.bind_eq_ok.1 g1'
  obtain ⟨t, -, g1'⟩ := Res.bind_eq_ok.1 g1'
  cases g1'
  have hreb : m.rebin Ω f avg = WMap.computeIntegrals Ω { m with
      n1 := coarse m.n1 f, n2 := coarse m.n2 f,
      crpix := ((m.crpix.1 - 0.5) / f + 0.5, (m.crpix.2 - 0.5) / f + 0.5),
      cdelt := (m.cdelt.1 * f, m.cdelt.2 * f),
      image := im, solid := [] } := by
    unfold WMap.rebin
    rw [if_neg hf.ne']
    simp only []
    rw [hw, Res.bind_ok, i1, Res.bind_ok]
  exact ⟨_, hreb.trans g1, rfl, rfl, ⟨i2, hc⟩, rfl, rfl, rfl, rfl, fun k hk => planeAt_eq (i3 k hk), fun k hk => g2 k hk⟩

/-- Without averaging every pixel of the coarser map is the sum of its block, and the sum over each
plane is kept, also if the factor does not divide the size. -/
theorem C68_sum (Ω : Omega) (m : WMap) (h : m.Tidy) (he : m.energies ≠ []) (hpos : ∀ e ∈ m.energies, 0 < e)
    (f : Nat) (hf : 0 < f) :
    ∃ m', m.rebin Ω f false = .ok m' ∧ m'.Tidy ∧ m'.energies = m.energies ∧
      (m.n1 ≤ m'.n1 * f ∧ m'.n1 * f < m.n1 + f) ∧ (m.n2 ≤ m'.n2 * f ∧ m'.n2 * f < m.n2 + f) ∧
      ∀ k < m.energies.length,
        (∀ ii < m'.n1, ∀ jj < m'.n2, pix (planeAt m' k) jj ii = block (fun i j => pix (planeAt m k) j i) f m.n1 m.n2 ii jj) ∧
        ∑ jj ∈ Finset.range m'.n2, ∑ ii ∈ Finset.range m'.n1, pix (planeAt m' k) jj ii =
          ∑ j ∈ Finset.range m.n2, ∑ i ∈ Finset.range m.n1, pix (planeAt m k) j i := by
  classical
  have hex : ∀ k, ∃ q, k < m.energies.length → coarsePlane (m.solidAngles Ω) (planeAt m k) m.n1 m.n2 f false = .ok q ∧
      Shape q (coarse m.n1 f) (coarse m.n2 f) ∧
      ∀ ii jj, pix q jj ii = block (fun i j => pix (planeAt m k) j i) f m.n1 m.n2 ii jj := by
    intro k
    by_cases hk : k < m.energies.length
    · have hk' : k < m.image.length := by rw [h.planes]; exact hk
      have hp := planeAt_eq (List.getElem?_eq_getElem hk')
      obtain ⟨q, hq⟩ := coarsePlane_sum (sa := m.solidAngles Ω) (p := planeAt m k) hf (by rw [hp]; exact h.shape _ (List.getElem_mem hk'))
      exact ⟨q, fun _ => hq⟩
    · exact ⟨[], fun h => absurd h hk⟩
  choose F hF using hex
  obtain ⟨m', h1, h2, h3, h4, h5, h6, h7, h8, h9, -⟩ := rebin_of_planes Ω m h he hpos hf (avg := false) (w := [])
    rfl F (fun k hk => (hF k hk).2.1) (by
      intro k hk p hp
      have := (hF k hk).1
      rw [planeAt_eq hp] at this
      rw [this]
      rfl)
  refine ⟨m', h1, h4, h5, by rw [h2]; exact coarse_mul _ hf, by rw [h3]; exact coarse_mul _ hf, fun k hk => ⟨fun ii _ jj _ => ?_, ?_⟩⟩
  · rw [h9 k hk, (hF k hk).2.2]
  · rw [h2, h3, h9 k hk]
    simp only [(hF k hk).2.2]
    exact sum_blocks (fun i j => pix (planeAt m k) j i) hf m.n1 m.n2

/-- With averaging every pixel is the mean of its block, weighted with the solid angles, if these
do not vanish: the sum of the pixels times the solid angles of their blocks is kept. -/
theorem C68_average_partial (Ω : Omega) (m : WMap) (h : m.Tidy) (hs : m.solid = []) (he : m.energies ≠ [])
    (hpos : ∀ e ∈ m.energies, 0 < e) (f : Nat) (hf : 0 < f)
    (hne : ∀ ii < coarse m.n1 f, ∀ jj < coarse m.n2 f,
      block (fun i j => Ω m.crpix m.cdelt (i + 1) (j + 1)) f m.n1 m.n2 ii jj ≠ 0) :
    ∃ m', m.rebin Ω f true = .ok m' ∧ m'.Tidy ∧ m'.n1 = coarse m.n1 f ∧ m'.n2 = coarse m.n2 f ∧
      m'.crpix = ((m.crpix.1 - 0.5) / f + 0.5, (m.crpix.2 - 0.5) / f + 0.5) ∧
      m'.cdelt = (m.cdelt.1 * f, m.cdelt.2 * f) ∧
      (∀ k < m.energies.length, m'.integrals[k]? =
        some (integral (fun i j => Ω m'.crpix m'.cdelt (i + 1) (j + 1)) (planeAt m' k) m'.n1 m'.n2)) ∧
      ∀ k < m.energies.length,
        (∀ ii < m'.n1, ∀ jj < m'.n2, pix (planeAt m' k) jj ii =
          block (fun i j => pix (planeAt m k) j i * Ω m.crpix m.cdelt (i + 1) (j + 1)) f m.n1 m.n2 ii jj /
            block (fun i j => Ω m.crpix m.cdelt (i + 1) (j + 1)) f m.n1 m.n2 ii jj) ∧
        integral (fun ii jj => block (fun i j => Ω m.crpix m.cdelt (i + 1) (j + 1)) f m.n1 m.n2 ii jj)
            (planeAt m' k) m'.n1 m'.n2 =
          integral (fun i j => Ω m.crpix m.cdelt (i + 1) (j + 1)) (planeAt m k) m.n1 m.n2 := by
  classical
  obtain ⟨s1, s2⟩ := solidAngles_lazy Ω m hs
  have hbl : ∀ (g : Nat → Nat → ℝ → ℝ) ii jj, block (fun i j => g i j (pix (m.solidAngles Ω) i j)) f m.n1 m.n2 ii jj =
      block (fun i j => g i j (Ω m.crpix m.cdelt (i + 1) (j + 1))) f m.n1 m.n2 ii jj := by
    intro g ii jj
    unfold block
    refine Finset.sum_congr rfl fun i hi => Finset.sum_congr rfl fun j hj => ?_
    simp only []
    rw [s2 i (Finset.mem_range.1 (Finset.mem_filter.1 hi).1) j (Finset.mem_range.1 (Finset.mem_filter.1 hj).1)]
  obtain ⟨w, w1, w2, w3⟩ := coarseAngles_eq hf s1
  have hw3 : ∀ ii jj, pix w jj ii = block (fun i j => Ω m.crpix m.cdelt (i + 1) (j + 1)) f m.n1 m.n2 ii jj :=
    fun ii jj => (w3 ii jj).trans (hbl (fun _ _ x => x) ii jj)
  have hex : ∀ k, ∃ q, k < m.energies.length →
      (coarsePlane (m.solidAngles Ω) (planeAt m k) m.n1 m.n2 f true >>= fun q =>
        average q w (coarse m.n1 f) (coarse m.n2 f)) = .ok q ∧
      Shape q (coarse m.n1 f) (coarse m.n2 f) ∧
      ∀ jj < coarse m.n2 f, ∀ ii < coarse m.n1 f, pix q jj ii =
        block (fun i j => pix (planeAt m k) j i * Ω m.crpix m.cdelt (i + 1) (j + 1)) f m.n1 m.n2 ii jj /
          block (fun i j => Ω m.crpix m.cdelt (i + 1) (j + 1)) f m.n1 m.n2 ii jj := by
    intro k
    by_cases hk : k < m.energies.length
    · have hk' : k < m.image.length := by rw [h.planes]; exact hk
      have hp := planeAt_eq (List.getElem?_eq_getElem hk')
      obtain ⟨q, q1, q2, q3⟩ := coarsePlane_avg hf s1 (p := planeAt m k) (by rw [hp]; exact h.shape _ (List.getElem_mem hk'))
      obtain ⟨r, r1, r2, r3⟩ := average_eq q2 w2 (fun jj hjj ii hii => by rw [hw3]; exact hne ii hii jj hjj)
      refine ⟨r, fun _ => ⟨by rw [q1, Res.bind_ok, r1], r2, fun jj hjj ii hii => ?_⟩⟩
      rw [r3 jj hjj ii hii, q3, hw3]
      rw [hbl (fun i j x => pix (planeAt m k) j i * x)]
    · exact ⟨[], fun h => absurd h hk⟩
  choose F hF using hex
  obtain ⟨m', h1, h2, h3, h4, h5, h6, h7, h8, h9, h10⟩ := rebin_of_planes Ω m h he hpos hf (avg := true) (w := w)
    w1 F (fun k hk => (hF k hk).2.1) (by
      intro k hk p hp
      have := (hF k hk).1
      rw [planeAt_eq hp] at this
      exact this)
  refine ⟨m', h1, h4, h2, h3, h7, h8, h10, fun k hk => ⟨fun ii hii jj hjj => ?_, ?_⟩⟩
  · rw [h2] at hii
    rw [h3] at hjj
    rw [h9 k hk, (hF k hk).2.2 jj hjj ii hii]
  · unfold integral
    rw [h2, h3, h9 k hk]
    have e := sum_blocks (fun i j => pix (planeAt m k) j i * Ω m.crpix m.cdelt (i + 1) (j + 1)) hf m.n1 m.n2
    have e2 : ∀ j ∈ Finset.range m.n2, ∑ i ∈ Finset.range m.n1, pix (planeAt m k) j i * Ω m.crpix m.cdelt (i + 1) (j + 1) =
        ∑ i ∈ Finset.range m.n1, Ω m.crpix m.cdelt (i + 1) (j + 1) * pix (planeAt m k) j i :=
      fun j _ => Finset.sum_congr rfl fun i _ => mul_comm _ _
    rw [← Finset.sum_congr rfl e2, ← e]
    refine Finset.sum_congr rfl fun jj hjj => Finset.sum_congr rfl fun ii hii => ?_
    have hjj := Finset.mem_range.1 hjj
    have hii := Finset.mem_range.1 hii
    rw [(hF k hk).2.2 jj hjj ii hii, mul_div_cancel₀ _ (hne ii hii jj hjj)]

/-- If the solid angle of every pixel of the coarser projection is the sum of those of its block,
the integrals of the coarser map are those of the map. -/
theorem C68_integral_partial (Ω : Omega) (m m0 : WMap) (h : m.Tidy) (hs : m.solid = []) (he : m.energies ≠ [])
    (hpos : ∀ e ∈ m.energies, 0 < e) (f : Nat) (hf : 0 < f) (h0 : m.computeIntegrals Ω = .ok m0)
    (hΩ : ∀ ii < coarse m.n1 f, ∀ jj < coarse m.n2 f,
      block (fun i j => Ω m.crpix m.cdelt (i + 1) (j + 1)) f m.n1 m.n2 ii jj =
        Ω ((m.crpix.1 - 0.5) / f + 0.5, (m.crpix.2 - 0.5) / f + 0.5) (m.cdelt.1 * f, m.cdelt.2 * f) (ii + 1) (jj + 1))
    (hne : ∀ ii < coarse m.n1 f, ∀ jj < coarse m.n2 f,
      block (fun i j => Ω m.crpix m.cdelt (i + 1) (j + 1)) f m.n1 m.n2 ii jj ≠ 0) :
    ∃ m', m.rebin Ω f true = .ok m' ∧ ∀ k < m.energies.length, m'.integrals[k]? = m0.integrals[k]? := by
  obtain ⟨m', h1, h2, h3, h4, h5, h6, h7, h8⟩ := C68_average_partial Ω m h hs he hpos f hf hne
  obtain ⟨m0', g1, g2, -⟩ := C67_integrals_partial Ω m h hs he hpos
  rw [h0] at g1
  cases g1
  refine ⟨m', h1, fun k hk => ?_⟩
  rw [h7 k hk, g2 k hk, ← (h8 k hk).2]
  congr 1
  unfold integral
  rw [h3, h4, h5, h6]
  refine Finset.sum_congr rfl fun jj hjj => Finset.sum_congr rfl fun ii hii => ?_
  simp only []
  rw [hΩ ii (Finset.mem_range.1 hii) jj (Finset.mem_range.1 hjj)]

/-- The mean over a block lies between bounds for its pixels. -/
theorem C68_bounds (w v : Nat → Nat → ℝ) (f n1 n2 ii jj : Nat) (lo hi : ℝ) (hw : ∀ i < n1, ∀ j < n2, 0 ≤ w i j)
    (hne : block w f n1 n2 ii jj ≠ 0)
    (hv : ∀ i < n1, ∀ j < n2, ii * f ≤ i → i < (ii + 1) * f → jj * f ≤ j → j < (jj + 1) * f → lo ≤ v i j ∧ v i j ≤ hi) :
    lo ≤ block (fun i j => v i j * w i j) f n1 n2 ii jj / block w f n1 n2 ii jj ∧
      block (fun i j => v i j * w i j) f n1 n2 ii jj / block w f n1 n2 ii jj ≤ hi := by
  have hpos : 0 < block w f n1 n2 ii jj := by
    refine lt_of_le_of_ne ?_ (Ne.symm hne)
    unfold block
    exact Finset.sum_nonneg fun i hi => Finset.sum_nonneg fun j hj =>
      hw i (Finset.mem_range.1 (Finset.mem_filter.1 hi).1) j (Finset.mem_range.1 (Finset.mem_filter.1 hj).1)
  rw [le_div_iff₀ hpos, div_le_iff₀ hpos]
  unfold block
  constructor
  all_goals
    rw [Finset.mul_sum]
    refine Finset.sum_le_sum fun i hi => ?_
    rw [Finset.mul_sum]
    refine Finset.sum_le_sum fun j hj => ?_
    have a := Finset.mem_filter.1 hi
    have b := Finset.mem_filter.1 hj
    have c := hv i (Finset.mem_range.1 a.1) j (Finset.mem_range.1 b.1) a.2.1 a.2.2 b.2.1 b.2.2
    have d := hw i (Finset.mem_range.1 a.1) j (Finset.mem_range.1 b.1)
    first
      | exact mul_le_mul_of_nonneg_right c.1 d
      | exact mul_le_mul_of_nonneg_right c.2 d

/-- The reference pixel and the size of the pixels are such that the edges of a pixel of the coarser
map are those of its block: the pixel number `ii` (from zero) has its left edge where the pixel
`ii * f` of the map has it, and its right edge where the next block begins. -/
theorem C68_edges (Ω : Omega) (m m' : WMap) (f : Nat) (avg : Bool) (h : m.rebin Ω f avg = .ok m') (ii : Nat) :
    ((((ii : ℝ) + 1) - 1 / 2) - m'.crpix.1) * m'.cdelt.1 = ((((ii * f : Nat) : ℝ) + 1) - 1 / 2 - m.crpix.1) * m.cdelt.1 ∧
    ((((ii : ℝ) + 1) - 1 / 2) - m'.crpix.2) * m'.cdelt.2 = ((((ii * f : Nat) : ℝ) + 1) - 1 / 2 - m.crpix.2) * m.cdelt.2 := by
  unfold WMap.rebin at h
  by_cases hf : f = 0
  · rw [if_pos hf] at h; cases h
  · rw [if_neg hf] at h
    simp only [] at h
    obtain ⟨w, -, h⟩ := Res.bind_eq_ok.1 h
    obtain ⟨im, -, h⟩ := Res.bind_eq_ok.1 h
    unfold WMap.computeIntegrals at h
    obtain ⟨vs, -, h⟩ := Res.bind_eq_ok.1 h
    obtain ⟨t, -, h⟩ := Res.bind_eq_ok.1 h
    cases h
    have hf' : (f : ℝ) ≠ 0 := by exact_mod_cast hf
    simp only []
    push_cast
    constructor
    · field_simp; ring
    · field_simp; ring

/-- A map that closes in itself is still taken to do so if the factor does not divide its size,
though it covers more than the full circle then. -/
theorem C68_periodic_violates (Ω : Omega) (m m' : WMap) (f : Nat) (avg : Bool) (h : m.rebin Ω f avg = .ok m')
    (hp : m.periodic = true) (hd : m.n1 % f ≠ 0) (hc : 0 < m.cdelt.1) :
    m'.periodic = true ∧ m.n1 * m.cdelt.1 < m'.n1 * m'.cdelt.1 := by
  unfold WMap.rebin at h
  by_cases hf : f = 0
  · rw [if_pos hf] at h; cases h
  · rw [if_neg hf] at h
    simp only [] at h
    obtain ⟨w, -, h⟩ := Res.bind_eq_ok.1 h
    obtain ⟨im, -, h⟩ := Res.bind_eq_ok.1 h
    unfold WMap.computeIntegrals at h
    obtain ⟨vs, -, h⟩ := Res.bind_eq_ok.1 h
    obtain ⟨t, -, h⟩ := Res.bind_eq_ok.1 h
    cases h
    refine ⟨hp, ?_⟩
    simp only []
    have hcm := coarse_mul m.n1 (Nat.pos_of_ne_zero hf)
    have hne : m.n1 ≠ coarse m.n1 f * f := by
      intro e
      rw [e, Nat.mul_mod_left] at hd
      exact hd rfl
    have : ((m.n1 : Nat) : ℝ) < ((coarse m.n1 f * f : Nat) : ℝ) := by exact_mod_cast (lt_of_le_of_ne hcm.1 hne)
    push_cast at this
    nlinarith


/-- A block without solid angle, as there are in the corners of a map of the whole sky, has no mean:
there is no coarser map then. -/
theorem C68_outside_violates (Ω : Omega) (m : WMap) (h : m.Tidy) (hs : m.solid = []) (he : m.energies ≠ []) (f : Nat)
    (ii jj : Nat) (hii : ii < coarse m.n1 f) (hjj : jj < coarse m.n2 f)
    (hz : block (fun i j => Ω m.crpix m.cdelt (i + 1) (j + 1)) f m.n1 m.n2 ii jj = 0) (m' : WMap) :
    m.rebin Ω f true ≠ .ok m' := by
  intro hc
  unfold WMap.rebin at hc
  by_cases hf : f = 0
  · rw [if_pos hf] at hc; cases hc
  · rw [if_neg hf] at hc
    have hf := Nat.pos_of_ne_zero hf
    obtain ⟨s1, s2⟩ := solidAngles_lazy Ω m hs
    obtain ⟨w, w1, w2, w3⟩ := coarseAngles_eq hf s1
    have hwz : pix w jj ii = 0 := by
      rw [w3, ← hz]
      unfold block
      refine Finset.sum_congr rfl fun i hi => Finset.sum_congr rfl fun j hj => ?_
      simp only []
      rw [s2 i (Finset.mem_range.1 (Finset.mem_filter.1 hi).1) j (Finset.mem_range.1 (Finset.mem_filter.1 hj).1)]
    simp only [weights, finish, if_true, w1, Res.bind_ok] at hc
    obtain ⟨im, hc, -⟩ := Res.bind_eq_ok.1 hc
    obtain ⟨a, b, -, hc⟩ := loop_ok_at (fun _ => True) hc trivial (fun _ _ _ _ _ => trivial) (i := 0) le_rfl (by
      have : m.energies.length ≠ 0 := by simpa using he
      omega)
    obtain ⟨p, -, hc⟩ := Res.bind_eq_ok.1 hc
    obtain ⟨q, -, hc⟩ := Res.bind_eq_ok.1 hc
    obtain ⟨r, hr, -⟩ := Res.bind_eq_ok.1 hc
    unfold average at hr
    obtain ⟨a, b, -, hr⟩ := loop_ok_at (fun _ => True) hr trivial (fun _ _ _ _ _ => trivial) (i := ii) (by omega) (by omega)
    obtain ⟨a, b, -, hr⟩ := loop_ok_at (fun _ => True) hr trivial (fun _ _ _ _ _ => trivial) (i := jj) (by omega) (by omega)
    obtain ⟨row, -, hr⟩ := Res.bind_eq_ok.1 hr
    obtain ⟨v, -, hr⟩ := Res.bind_eq_ok.1 hr
    obtain ⟨wr, hwr, hr⟩ := Res.bind_eq_ok.1 hr
    obtain ⟨s, hsv, hr⟩ := Res.bind_eq_ok.1 hr
    obtain ⟨q', hq, -⟩ := Res.bind_eq_ok.1 hr
    obtain ⟨wr', -, g1, g2, g3⟩ := w2.row hjj
    rw [hwr] at g1
    cases g1
    rw [vget_el (by omega)] at hsv
    cases hsv
    rw [← g3, hwz] at hq
    unfold divide at hq
    rw [if_pos rfl] at hq
    cases hq

/-- A map of three pixels in a row. -/
def three : WMap := ⟨false, 3, 1, (2, 1), (1, 1), [100], [[[4, 6, 9]]], [], [], 0⟩

theorem three_tidy : three.Tidy := ⟨rfl, fun p hp => by
  simp only [three, List.mem_cons, List.not_mem_nil, or_false] at hp
  subst hp
  exact ⟨rfl, by simp [three]⟩⟩

/-- Two by two pixels make two pixels of the three, the last one with one pixel. -/
example (Ω : Omega) : ∃ m', three.rebin Ω 2 false = .ok m' ∧ m'.n1 = 2 ∧
    ∑ jj ∈ Finset.range m'.n2, ∑ ii ∈ Finset.range m'.n1, pix (planeAt m' 0) jj ii = 19 := by
  obtain ⟨m', h1, -, -, h2, h3, h4⟩ := C68_sum Ω three three_tidy (by simp [three]) (by simp [three]) 2 (by norm_num)
  have e : m'.n1 = 2 := by simp only [three] at h2; omega
  refine ⟨m', h1, e, ?_⟩
  rw [(h4 0 (by simp [three])).2]
  simp [three, planeAt, pix, Finset.sum_range_succ]
  norm_num

/-- Averages exist for equal solid angles, and not where there is no solid angle. -/
example : (∃ m', three.rebin (fun _ _ _ _ => 1) 2 true = .ok m') ∧ ∀ m', three.rebin (fun _ _ i _ => if i = 3 then 0 else 1) 2 true ≠ .ok m' := by
  have c1 : coarse three.n1 2 = 2 := rfl
  have c2 : coarse three.n2 2 = 1 := rfl
  constructor
  · obtain ⟨m', h1, -⟩ := C68_average_partial (fun _ _ _ _ => 1) three three_tidy rfl (by simp [three]) (by simp [three]) 2 (by norm_num) (by
      intro ii hii jj hjj
      rw [c1] at hii
      rw [c2] at hjj
      have e2 : jj = 0 := by omega
      have e1 : ii = 0 ∨ ii = 1 := by omega
      subst e2
      rw [← block_eq _ (by norm_num)]
      rcases e1 with rfl | rfl <;> simp [three, Finset.sum_range_succ])
    exact ⟨m', h1⟩
  · refine C68_outside_violates _ three three_tidy rfl (by simp [three]) 2 1 0 (by rw [c1]; norm_num) (by rw [c2]; norm_num) ?_
    rw [← block_eq _ (by norm_num)]
    simp [three, Finset.sum_range_succ]

end Verif.MapInt
