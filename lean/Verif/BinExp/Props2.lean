import Verif.BinExp.Lemmas
import Mathlib.Tactic.NormNum
import Mathlib.Tactic.Positivity
set_option linter.unusedSectionVars false
set_option linter.unusedSimpArgs false
set_option linter.unusedVariables false
/-
C86: computing a binned exposure map, writing it to a file and reading it.
C87: the range of inclinations.
-/
namespace Verif.BinExp
open Verif Verif.Vec Real Spec

/-! ### C86: the map -/

/-- C86: the value of a pixel and an energy is the sum over the responses of the livetime integral
for the direction of the pixel's centre; zero for a pixel without direction. -/
theorem C86_values {D : Type} (n0 n1 ne nresp : Nat) (hl : n0 * n1 * ne < 2 ^ 32) (dir : Nat → Nat → Option D)
    (f : D → Nat → Nat → ℝ) :
    ∃ m, computeMap n0 n1 ne nresp dir f = .ok m ∧ m.length = n0 * n1 * ne ∧
      ∀ i j k, i < n0 → j < n1 → k < ne →
        (∀ d, dir (i + 1) (j + 1) = some d →
          val m (place n0 n1 i j k) = ∑ r ∈ Finset.range nresp, f d k r) ∧
        (dir (i + 1) (j + 1) = none → val m (place n0 n1 i j k) = 0) := by
  obtain ⟨m, h1, h2, h3⟩ := computeMap_holds hl nresp dir f
  refine ⟨m, h1, h2, fun i j k hi hj hk => ?_⟩
  rw [place_eq, h3 k j i hk hj hi]
  exact ⟨fun d hd => by simp [total, hd], fun hd => by simp [total, hd]⟩

/-- What the constructor for a counts map does. -/
theorem ofCountsMap_ok {D : Type} (g : Geom) (n0 n1 : Nat) (es : List ℝ) (b : Nat) (hlen : 2 ≤ es.length)
    (hpos : ∀ e ∈ es, 0 < e) (hl : n0 * n1 * (es.length + 2 * b) < 2 ^ 32) (ue : Bool) (nresp : Nat)
    (dir : Geom → Nat → Nat → Option D) (f : D → ℝ → Nat → ℝ) :
    ∃ m out, ofCountsMap g n0 n1 es b ue nresp dir f = .ok m ∧ Energy.expandEnergies es b = .ok out ∧
      m.geom = g ∧ m.naxes = (n0, n1, if ue then es.length else es.length - 1) ∧
      m.energies = (if ue then out else means out) ∧ m.data.length = n0 * n1 * m.energies.length ∧
      ∀ i j k, i < n0 → j < n1 → k < m.energies.length →
        val m.data (place n0 n1 i j k) = total nresp (dir g) (fun d k r => f d (m.energies.getD k 0) r) k j i := by
  obtain ⟨out, h1, h2, _⟩ := Energy.expand_ok (b := b) hlen hpos
  have hle : (if ue then out else means out).length ≤ es.length + 2 * b := by
    cases ue
    · simp only [Bool.false_eq_true, if_false]; rw [means_length]; omega
    · simp only [if_true]; omega
  have hl' : n0 * n1 * (if ue then out else means out).length < 2 ^ 32 :=
    lt_of_le_of_lt (Nat.mul_le_mul_left _ hle) hl
  obtain ⟨data, h3, h4, h5⟩ := computeMap_holds hl' nresp (dir g)
    (fun d k r => f d ((if ue then out else means out).getD k 0) r)
  refine ⟨⟨g, (n0, n1, if ue then es.length else es.length - 1), if ue then out else means out, data⟩, out, ?_, h1,
    rfl, rfl, rfl, h4, fun i j k hi hj hk => ?_⟩
  · unfold ofCountsMap
    rw [h1, Res.bind_ok]
    simp only [h3, Res.bind_ok]
  · rw [place_eq]
    exact h5 k j i hk hj hi

/-- C86: with the energies of the counts map's bins (no additional bins), the map has the energies
of the counts map, and as many values as its size says. -/
theorem C86_energies_partial {D : Type} (g : Geom) (n0 n1 : Nat) (es : List ℝ) (hlen : 2 ≤ es.length)
    (hpos : ∀ e ∈ es, 0 < e) (hl : n0 * n1 * es.length < 2 ^ 32) (nresp : Nat)
    (dir : Geom → Nat → Nat → Option D) (f : D → ℝ → Nat → ℝ) :
    ∃ m, ofCountsMap g n0 n1 es 0 true nresp dir f = .ok m ∧ m.energies = es ∧ m.naxes = (n0, n1, es.length) ∧
      m.data.length = n0 * n1 * es.length := by
  obtain ⟨m, out, h1, h2, h3, h4, h5, h6, _⟩ := ofCountsMap_ok g n0 n1 es 0 hlen hpos (by simpa using hl) true nresp dir f
  obtain ⟨out', g1, g2, g3, _⟩ := Energy.expand_ok (b := 0) hlen hpos
  rw [h2] at g1
  cases g1
  have he : out = es := by
    apply List.ext_getElem (by simpa using g2)
    intro k hk hk'
    have := g3 k hk'
    rw [Nat.zero_add, val_getElem hk, val_getElem hk'] at this
    exact this
  simp only [if_true] at h4 h5
  refine ⟨m, h1, by rw [h5, he], h4, by rw [h6, h5, he]⟩

/-- C86: otherwise the energies are the geometric means of neighbouring energies. -/
theorem C86_means {D : Type} (g : Geom) (n0 n1 : Nat) (es : List ℝ) (hlen : 2 ≤ es.length)
    (hpos : ∀ e ∈ es, 0 < e) (hl : n0 * n1 * es.length < 2 ^ 32) (nresp : Nat)
    (dir : Geom → Nat → Nat → Option D) (f : D → ℝ → Nat → ℝ) :
    ∃ m, ofCountsMap g n0 n1 es 0 false nresp dir f = .ok m ∧ m.energies.length + 1 = es.length ∧
      m.naxes = (n0, n1, m.energies.length) ∧
      ∀ k, k + 1 < es.length → ∃ c, m.energies[k]? = some c ∧ 0 < c ∧ c * c = val es k * val es (k + 1) := by
  obtain ⟨m, out, h1, h2, h3, h4, h5, h6, _⟩ := ofCountsMap_ok g n0 n1 es 0 hlen hpos (by simpa using hl) false nresp dir f
  obtain ⟨out', g1, g2, g3, _⟩ := Energy.expand_ok (b := 0) hlen hpos
  rw [h2] at g1
  cases g1
  simp only [Bool.false_eq_true, if_false] at h4 h5
  have hm : m.energies.length = es.length - 1 := by rw [h5, means_length, g2]; omega
  refine ⟨m, h1, by omega, by rw [h4, hm], fun k hk => ⟨_, getElem?_val (by omega), ?_⟩⟩
  have a1 := g3 k (by omega)
  have a2 := g3 (k + 1) hk
  rw [Nat.zero_add] at a1 a2
  have hp : 0 < val es k * val es (k + 1) :=
    mul_pos (hpos _ (val_mem (by omega))) (hpos _ (val_mem hk))
  rw [h5, val_means (by omega), a1, a2]
  exact ⟨Real.sqrt_pos.2 hp, Real.mul_self_sqrt hp.le⟩

/-- C86 (violated): with additional bins for the energy dispersion the map has more energies and
values than its size says, two planes for each additional bin. -/
theorem C86_planes_violates {D : Type} (g : Geom) (n0 n1 : Nat) (es : List ℝ) (b : Nat) (hlen : 2 ≤ es.length)
    (hpos : ∀ e ∈ es, 0 < e) (hl : n0 * n1 * (es.length + 2 * b) < 2 ^ 32) (ue : Bool) (nresp : Nat)
    (dir : Geom → Nat → Nat → Option D) (f : D → ℝ → Nat → ℝ) :
    ∃ m, ofCountsMap g n0 n1 es b ue nresp dir f = .ok m ∧ m.energies.length = m.naxes.2.2 + 2 * b := by
  obtain ⟨m, out, h1, h2, h3, h4, h5, h6, _⟩ := ofCountsMap_ok g n0 n1 es b hlen hpos hl ue nresp dir f
  obtain ⟨out', g1, g2, _⟩ := Energy.expand_ok (b := b) hlen hpos
  rw [h2] at g1
  cases g1
  refine ⟨m, h1, ?_⟩
  rw [h4, h5]
  cases ue
  · simp only [Bool.false_eq_true, if_false]; rw [means_length]; omega
  · simp only [if_true]; omega

/-! ### C86: the file -/

/-- C86 (partial): a map whose reference pixel is its middle, that is not rotated and has as many
planes as energies is the same after writing and reading: every request has the same outcome. -/
theorem C86_file_partial {D : Type} (pix : Geom → D → Option (ℝ × ℝ)) (m : Made)
    (hc : m.geom.crpix = (((m.naxes.1 : ℝ) + 1) / 2, ((m.naxes.2.1 : ℝ) + 1) / 2)) (hr : m.geom.rot = 0)
    (hd : m.data.length = m.naxes.1 * m.naxes.2.1 * m.naxes.2.2) :
    (∀ e d, lookup (ofFile pix (write m)) e d = lookup (ofMade pix m) e d) ∧
    (∀ d es, lookups (ofFile pix (write m)) d es = lookups (ofMade pix m) d es) := by
  have : ofFile pix (write m) = ofMade pix m := by
    unfold ofFile write ofMade
    simp only [← hd, List.take_length, ← hc]
    rw [show ({ m.geom with rot := 0 } : Geom) = m.geom by rw [← hr]]
  rw [this]
  exact ⟨fun _ _ => rfl, fun _ _ => rfl⟩

/-- A projection for examples: longitude and latitude in degrees, rotated about the reference
point. -/
noncomputable def plate (g : Geom) (d : ℝ × ℝ) : Option (ℝ × ℝ) :=
  some (g.crpix.1 + (cos (g.rot * π / 180) * (d.1 - g.crval.1) + sin (g.rot * π / 180) * (d.2 - g.crval.2)) / g.cdelt.1,
    g.crpix.2 + (-sin (g.rot * π / 180) * (d.1 - g.crval.1) + cos (g.rot * π / 180) * (d.2 - g.crval.2)) / g.cdelt.2)

theorem one_energy : findNearest defaultTol [1] 1 = .ok 0 :=
  findNearest_nodup (xs := [1]) (k := 0) (by simp) (by simp)

/-- A map of three pixels. -/
theorem three_pixels {pix : ℝ × ℝ → Option (ℝ × ℝ)} {d : ℝ × ℝ} {i : Nat} (hi : i < 3)
    (hp : pix d = some ((i : ℝ) + 1, 1)) (data : List ℝ) :
    lookup ⟨[1], 3, 1, data, false, some pix⟩ 1 d = .ok (val data i) := by
  rw [lookup_in (m := ⟨[1], 3, 1, data, false, some pix⟩) (pix := pix) (p := ((i : ℝ) + 1, 1)) (i := i)
      (j := 0) (k := 0) rfl hp one_energy (index_nat le_rfl (by linarith))
      (index_nat (by norm_num) (by norm_num)) hi (by norm_num) (by norm_num)]
  simp [place]

/-- C86 (violated): a map whose reference pixel is not its middle is another one after writing and
reading. -/
theorem C86_crpix_violates : ∃ m : Made, ∃ d, m.geom.rot = 0 ∧ m.data.length = m.naxes.1 * m.naxes.2.1 * m.naxes.2.2 ∧
    m.energies.length = m.naxes.2.2 ∧
    lookup (ofMade plate m) 1 d = .ok 5 ∧ lookup (ofFile plate (write m)) 1 d = .ok 6 := by
  refine ⟨⟨⟨"CAR", (1, 1), (0, 0), (1, 1), 0, false⟩, (3, 1, 1), [1], [5, 6, 7]⟩, (0, 0), rfl, rfl, rfl, ?_, ?_⟩
  · exact three_pixels (i := 0) (by norm_num) (by norm_num [plate]) [5, 6, 7]
  · exact three_pixels (i := 1) (by norm_num) (by norm_num [plate, write]) [5, 6, 7]

/-- C86 (violated): a rotated map is read back without the rotation. -/
theorem C86_rotation_violates : ∃ m : Made, ∃ d, m.data.length = m.naxes.1 * m.naxes.2.1 * m.naxes.2.2 ∧
    m.energies.length = m.naxes.2.2 ∧
    m.geom.crpix = (((m.naxes.1 : ℝ) + 1) / 2, ((m.naxes.2.1 : ℝ) + 1) / 2) ∧
    lookup (ofMade plate m) 1 d = .ok 5 ∧ lookup (ofFile plate (write m)) 1 d = .ok 7 := by
  refine ⟨⟨⟨"CAR", (2, 1), (0, 0), (1, 1), 180, false⟩, (3, 1, 1), [1], [5, 6, 7]⟩, (1, 0), rfl, rfl, by norm_num, ?_, ?_⟩
  · have : (180 : ℝ) * π / 180 = π := by ring
    exact three_pixels (i := 0) (by norm_num) (by simp [plate, this]; norm_num) [5, 6, 7]
  · exact three_pixels (i := 2) (by norm_num) (by norm_num [plate, write]) [5, 6, 7]

/-- C86 (violated): when the map has more energies than planes, the energies above the last plane
have an exposure of zero after writing and reading by the one function, and the other reads beyond
the end of the vector. -/
theorem C86_short_violates {D : Type} (pix : Geom → D → Option (ℝ × ℝ)) (m : Made) (d : D) (p : ℝ × ℝ) (e : ℝ) (k : Nat)
    (hl : m.naxes.1 * m.naxes.2.1 * m.energies.length < 2 ^ 32)
    (hpx : pix (write m).geom d = some p) (hk : findNearest defaultTol m.energies e = .ok k) (hk2 : m.naxes.2.2 ≤ k)
    (h1 : 0 < p.1) (h2 : p.1 < (m.naxes.1 : ℝ) + 1) (h3 : 0 < p.2) (h4 : p.2 < (m.naxes.2.1 : ℝ) + 1)
    (h0 : 0 < m.naxes.1) (h0' : 0 < m.naxes.2.1) :
    lookup (ofFile pix (write m)) e d = .ok 0 ∧ lookups (ofFile pix (write m)) d [e] = .ub := by
  obtain ⟨i, hi, ei⟩ := index_in h1 h2 h0
  obtain ⟨j, hj, ej⟩ := index_in h3 h4 h0'
  have hlen : (ofFile pix (write m)).data.length ≤ place m.naxes.1 m.naxes.2.1 i j k := by
    simp only [ofFile, write, List.length_take]
    refine le_trans (min_le_left _ _) ?_
    rw [place]
    calc m.naxes.1 * m.naxes.2.1 * m.naxes.2.2 = m.naxes.1 * (m.naxes.2.1 * m.naxes.2.2) := by ring
      _ ≤ m.naxes.1 * (m.naxes.2.1 * k) := Nat.mul_le_mul_left _ (Nat.mul_le_mul_left _ hk2)
      _ ≤ m.naxes.1 * (j + m.naxes.2.1 * k) := Nat.mul_le_mul_left _ (by omega)
      _ ≤ _ := by omega
  constructor
  · rw [lookup_in (m := ofFile pix (write m)) rfl hpx hk ei ej hi hj hl]
    congr 1
    show ((ofFile pix (write m)).data[place m.naxes.1 m.naxes.2.1 i j k]?).getD 0 = 0
    rw [List.getElem?_eq_none hlen]
    rfl
  · have hw : within (ofFile pix (write m)) i j = true := within_iff.2 ⟨by omega, by simpa [ofFile, write] using hi,
      by omega, by simpa [ofFile, write] using hj⟩
    unfold lookups
    rw [show (ofFile pix (write m)).proj = some (pix (write m).geom) from rfl]
    simp only [hpx, ei, ej, hw, Bool.not_true, Bool.and_false, Bool.false_eq_true, if_false]
    rw [loop_row (m := ofFile pix (write m)) hk hi hj hl]
    show (vget (ofFile pix (write m)).data (place m.naxes.1 m.naxes.2.1 i j k) >>= _) = _
    rw [vget_ge _ _ hlen]
    rfl

/-! The hypotheses are met: a map of three pixels in the middle, one energy; and a counts map. -/
noncomputable section example86
def exMade : Made := ⟨⟨"CAR", (2, 1), (0, 0), (1, 1), 0, false⟩, (3, 1, 1), [1], [5, 6, 7]⟩

example : exMade.geom.crpix = (((exMade.naxes.1 : ℝ) + 1) / 2, ((exMade.naxes.2.1 : ℝ) + 1) / 2) ∧ exMade.geom.rot = 0 ∧
    exMade.data.length = exMade.naxes.1 * exMade.naxes.2.1 * exMade.naxes.2.2 := by
  refine ⟨by norm_num [exMade], rfl, rfl⟩

example : ∃ m, computeMap 1 1 1 2 (fun _ _ => some ()) (fun _ _ r => (r : ℝ) + 1) = .ok m ∧ val m 0 = 3 := by
  obtain ⟨m, h1, _, h3⟩ := C86_values 1 1 1 2 (by norm_num) (fun _ _ => some ()) (fun _ _ r => (r : ℝ) + 1)
  refine ⟨m, h1, ?_⟩
  have := (h3 0 0 0 (by norm_num) (by norm_num) (by norm_num)).1 () rfl
  simp [place, Finset.sum_range_succ] at this
  rw [this]; norm_num

example : 2 ≤ [(1 : ℝ), 10].length ∧ (∀ e ∈ [(1 : ℝ), 10], 0 < e) ∧ 3 * 1 * ([(1 : ℝ), 10].length + 2 * 1) < 2 ^ 32 := by
  refine ⟨by simp, by simp, by simp⟩
end example86

/-! ### C87 -/

theorem cos_le_iff {a b : ℝ} (ha : 0 ≤ a) (ha' : a ≤ 180) (hb : 0 ≤ b) (hb' : b ≤ 180) :
    cos (a * π / 180) ≤ cos (b * π / 180) ↔ b ≤ a := by
  have hp := Real.pi_pos
  have h : ∀ x : ℝ, 0 ≤ x → x ≤ 180 → x * π / 180 ∈ Set.Icc 0 π := by
    intro x hx hx'
    constructor
    · positivity
    · rw [div_le_iff₀ (by norm_num)]; nlinarith
  rw [Real.strictAntiOn_cos.le_iff_ge (h a ha ha') (h b hb hb')]
  rw [div_le_div_iff_of_pos_right (by norm_num), mul_le_mul_iff_left₀ hp]

/-- C87 (partial): for limits such that the smaller is at most 180 degrees and the larger not negative, the effective
area counts for the inclinations between the limits and is zero for all others. -/
theorem C87_range_partial (thmin thmax : ℝ) (h1 : thmin ≤ 180) (h2 : 0 ≤ thmax) (aeff : ℝ → ℝ) (θ : ℝ)
    (h3 : 0 ≤ θ) (h4 : θ ≤ 180) :
    (thmin ≤ θ ∧ θ ≤ thmax → aeffValue (cosBounds thmin thmax) aeff (cos (θ * π / 180)) = aeff (cos (θ * π / 180))) ∧
    (θ < thmin ∨ thmax < θ → aeffValue (cosBounds thmin thmax) aeff (cos (θ * π / 180)) = 0) := by
  have a1 : (cosBounds thmin thmax).1 ≤ cos (θ * π / 180) ↔ θ ≤ thmax := by
    unfold cosBounds
    by_cases h : thmax < 180
    · simp only [if_pos h]
      exact cos_le_iff h2 h.le h3 h4
    · simp only [if_neg h]
      exact iff_of_true (Real.neg_one_le_cos _) (by linarith)
  have a2 : cos (θ * π / 180) ≤ (cosBounds thmin thmax).2 ↔ thmin ≤ θ := by
    unfold cosBounds
    by_cases h : thmin > 0
    · simp only [if_pos h]
      exact cos_le_iff h3 h4 h.le h1
    · simp only [if_neg h]
      exact iff_of_true (Real.cos_le_one _) (by linarith)
  unfold aeffValue
  constructor
  · rintro ⟨b1, b2⟩
    rw [if_neg]
    rw [not_or, not_lt, gt_iff_lt, not_lt]
    exact ⟨a1.2 b2, a2.2 b1⟩
  · rintro (b | b)
    · rw [if_pos (Or.inr (not_le.1 fun hc => absurd (a2.1 hc) (not_le.2 b)))]
    · rw [if_pos (Or.inl (not_le.1 fun hc => absurd (a1.1 hc) (not_le.2 b)))]

/-- C87: the ranges below and above an inclination add up to the whole range, except for that
inclination itself. -/
theorem C87_split (thmin th thmax : ℝ) (h1 : thmin ≤ th) (h2 : th ≤ thmax) (h3 : 0 ≤ th) (h4 : th ≤ 180) (aeff : ℝ → ℝ)
    (θ : ℝ) (h5 : 0 ≤ θ) (h6 : θ ≤ 180) (hne : θ ≠ th) :
    aeffValue (cosBounds thmin th) aeff (cos (θ * π / 180)) + aeffValue (cosBounds th thmax) aeff (cos (θ * π / 180)) =
      aeffValue (cosBounds thmin thmax) aeff (cos (θ * π / 180)) := by
  obtain ⟨a1, a2⟩ := C87_range_partial thmin th (h1.trans h4) h3 aeff θ h5 h6
  obtain ⟨b1, b2⟩ := C87_range_partial th thmax h4 (h3.trans h2) aeff θ h5 h6
  obtain ⟨c1, c2⟩ := C87_range_partial thmin thmax (h1.trans h4) (h3.trans h2) aeff θ h5 h6
  rcases lt_or_gt_of_ne hne with h | h
  · rw [b2 (Or.inl h), add_zero]
    rcases le_or_gt thmin θ with h' | h'
    · rw [a1 ⟨h', h.le⟩, c1 ⟨h', by linarith⟩]
    · rw [a2 (Or.inl h'), c2 (Or.inl h')]
  · rw [a2 (Or.inr h), zero_add]
    rcases le_or_gt θ thmax with h' | h'
    · rw [b1 ⟨h.le, h'⟩, c1 ⟨by linarith, h'⟩]
    · rw [b2 (Or.inr h'), c2 (Or.inr h')]

/-- C87: a wider range never gives less. -/
theorem C87_wider (thmin thmax thmin' thmax' : ℝ) (h1 : thmin' ≤ thmin) (h2 : thmax ≤ thmax') (h3 : thmin ≤ 180)
    (h4 : 0 ≤ thmax) (aeff : ℝ → ℝ) (ha : ∀ c, 0 ≤ aeff c) (θ : ℝ) (h5 : 0 ≤ θ) (h6 : θ ≤ 180) :
    aeffValue (cosBounds thmin thmax) aeff (cos (θ * π / 180)) ≤
      aeffValue (cosBounds thmin' thmax') aeff (cos (θ * π / 180)) := by
  obtain ⟨a1, a2⟩ := C87_range_partial thmin thmax h3 h4 aeff θ h5 h6
  obtain ⟨b1, b2⟩ := C87_range_partial thmin' thmax' (h1.trans h3) (h4.trans h2) aeff θ h5 h6
  by_cases h : thmin ≤ θ ∧ θ ≤ thmax
  · rw [a1 h, b1 ⟨h1.trans h.1, h.2.trans h2⟩]
  · rw [a2 (by rw [not_and_or, not_le, not_le] at h; exact h)]
    unfold aeffValue
    split
    · exact le_rfl
    · exact ha _

/-- C87 (violated): a negative upper limit is taken as its absolute value, although no inclination
is below it. -/
theorem C87_negative_violates : ∃ thmin thmax θ : ℝ, 0 ≤ θ ∧ θ ≤ 180 ∧ thmax < θ ∧
    aeffValue (cosBounds thmin thmax) (fun _ => 1) (cos (θ * π / 180)) = 1 := by
  refine ⟨0, -60, 30, by norm_num, by norm_num, by norm_num, ?_⟩
  have h : cos ((60 : ℝ) * π / 180) ≤ cos (30 * π / 180) :=
    (cos_le_iff (by norm_num) (by norm_num) (by norm_num) (by norm_num)).2 (by norm_num)
  have h2 : cos ((-60 : ℝ) * π / 180) = cos (60 * π / 180) := by
    rw [show (-60 : ℝ) * π / 180 = -(60 * π / 180) by ring, Real.cos_neg]
  unfold aeffValue cosBounds
  rw [if_neg]
  rw [not_or, not_lt, not_lt]
  norm_num
  constructor
  · rw [show -(60 * π) / 180 = -60 * π / 180 by ring, h2]; exact h
  · exact Real.cos_le_one _

/-! A case that meets the hypotheses: between 20 and 60 degrees. -/
example : aeffValue (cosBounds 20 60) (fun _ => 1) (cos (30 * π / 180)) = 1 ∧
    aeffValue (cosBounds 20 60) (fun _ => 1) (cos (10 * π / 180)) = 0 :=
  ⟨(C87_range_partial 20 60 (by norm_num) (by norm_num) _ 30 (by norm_num) (by norm_num)).1 (by norm_num),
    (C87_range_partial 20 60 (by norm_num) (by norm_num) _ 10 (by norm_num) (by norm_num)).2 (by norm_num)⟩

end Verif.BinExp
