import Verif.MapSize.Lemmas
import Verif.DiffMap.Props2
set_option linter.unusedVariables false
set_option linter.unusedSimpArgs false
/-
C138: the sizes of maps enclose what they stand for, and the map of counts of a diffuse source covers the counts map.
-/
namespace Verif.MapSize
open Verif Real

/-! ### The radius of a map in the plane -/

/-- C138, in part: with a projection in which the separation grows with the distance from the reference point, wherever that
point is, every pixel of a map has its centre within the radius of the map. -/
theorem C138_pixels_partial (sep : Dir → ℝ) (c : Chart) (x0 y0 a b : ℝ) (g : ℝ → ℝ) (z : Spec.Zenithal sep c x0 y0 a b g) :
    Spec.PixelsWithin sep c (cornerRadius sep c) := by
  intro i j hi1 hi2 hj1 hj2 d hd
  rw [cornerRadius_eq]
  have val : ∀ x y : ℝ, sep (skyDir c x y) = g ((a * (x - x0)) ^ 2 + (b * (y - y0)) ^ 2) := by
    intro x y
    obtain ⟨e, h1, h2⟩ := z.everywhere x y
    rw [skyDir_some h1, h2]
  have hd' : sep d = g ((a * ((i : ℝ) - x0)) ^ 2 + (b * ((j : ℝ) - y0)) ^ 2) := by
    rw [← val, skyDir_some hd]
  rw [hd', val, val, val, val]
  have i1 : (1 : ℝ) ≤ i := by exact_mod_cast hi1
  have i2 : (i : ℝ) ≤ c.n1 := by exact_mod_cast hi2
  have j1 : (1 : ℝ) ≤ j := by exact_mod_cast hj1
  have j2 : (j : ℝ) ≤ c.n2 := by exact_mod_cast hj2
  have step : ∀ u v : ℝ, ((i : ℝ) - x0) ^ 2 ≤ (u - x0) ^ 2 → ((j : ℝ) - y0) ^ 2 ≤ (v - y0) ^ 2 →
      g ((a * ((i : ℝ) - x0)) ^ 2 + (b * ((j : ℝ) - y0)) ^ 2) ≤ g ((a * (u - x0)) ^ 2 + (b * (v - y0)) ^ 2) := by
    intro u v hu hv
    refine z.mono _ _ (by positivity) ?_
    rw [mul_pow, mul_pow, mul_pow, mul_pow]
    gcongr
  rcases sq_end 1 c.n1 i x0 i1 i2 with hu | hu <;> rcases sq_end 1 c.n2 j y0 j1 j2 with hv | hv
  · exact le_max_of_le_left (le_max_of_le_left (le_max_of_le_left (step _ _ hu hv)))
  · exact le_max_of_le_left (le_max_of_le_left (le_max_of_le_right (step _ _ hu hv)))
  · exact le_max_of_le_right (step _ _ hu hv)
  · exact le_max_of_le_left (le_max_of_le_right (step _ _ hu hv))

/-- The hypotheses can be met: a chart with directions for all positions, the separation being half of the angle of the
stereographic projection. -/
example : Spec.Zenithal (fun d => 2 * arctan (√(d.1 ^ 2 + d.2 ^ 2) / 2)) ⟨fun x y => some (2 * (x - 3), 1 * (y - 4)), 7, 8⟩ 3 4 2 1
    (fun s => 2 * arctan (√s / 2)) := by
  refine ⟨fun x y => ⟨_, rfl, rfl⟩, fun s t h0 h => ?_⟩
  have := sqrt_le_sqrt h
  have h2 := arctan_strictMono.monotone (a := √s / 2) (b := √t / 2) (by linarith)
  linarith

/-- C138.  For a map around the sky every direction is within its radius. -/
theorem C138_around (sep : Dir → ℝ) (hs : ∀ d, sep d ≤ π) (cdelt1 : ℝ) (c : Chart) (hp : (c.n1 : ℝ) * cdelt1 = -360)
    (d : Dir) : within sep (fileRadius sep cdelt1 c) d := by
  have h : isPeriodic c.n1 cdelt1 = true := by
    unfold isPeriodic
    apply decide_eq_true
    have e : (((c.n1 : ℤ) : ℝ)) * cdelt1 = -360 := by rw [Int.cast_natCast]; exact hp
    rw [e]
    have ht : Wcs.trunc (-360) = -360 := by
      unfold Wcs.trunc
      rw [if_neg (by norm_num)]
      have : (-360 : ℝ) = ((-360 : ℤ) : ℝ) := by norm_num
      rw [this, Int.ceil_intCast]
    unfold Wcs.myRound
    rw [ht]
    norm_num
  unfold within fileRadius
  rw [if_pos h]
  have := pi_lt_d2
  linarith [hs d]

/-- The hypothesis can be met. -/
example : ((3600 : Nat) : ℝ) * (-0.1) = -360 := by norm_num

/-- C138 is violated by the half of a pixel at the border: with the reference point in the middle, the outer corner of the
last pixel is on the map and not within its radius. -/
theorem C138_border_violates (sep : Dir → ℝ) (c : Chart) (a b : ℝ) (ha : a ≠ 0) (h1 : 1 ≤ c.n1) (h2 : 1 ≤ c.n2) (g : ℝ → ℝ)
    (z : Spec.Zenithal sep c ((c.n1 + 1) / 2) ((c.n2 + 1) / 2) a b g) (strict : ∀ s t, 0 ≤ s → s < t → g s < g t) :
    ∃ d, c.dir (c.n1 + 1 / 2) (c.n2 + 1 / 2) = some d ∧ ¬ within sep (cornerRadius sep c) d := by
  obtain ⟨d, e1, e2⟩ := z.everywhere (c.n1 + 1 / 2) (c.n2 + 1 / 2)
  refine ⟨d, e1, ?_⟩
  unfold within
  rw [not_le, cornerRadius_eq, e2]
  have val : ∀ x y : ℝ, sep (skyDir c x y) = g ((a * (x - (c.n1 + 1) / 2)) ^ 2 + (b * (y - (c.n2 + 1) / 2)) ^ 2) := by
    intro x y
    obtain ⟨e, f1, f2⟩ := z.everywhere x y
    rw [skyDir_some f1, f2]
  rw [val, val, val, val]
  have n1 : (1 : ℝ) ≤ c.n1 := by exact_mod_cast h1
  have n2 : (1 : ℝ) ≤ c.n2 := by exact_mod_cast h2
  have ha2 : 0 < a ^ 2 := by positivity
  have lt : ∀ x y : ℝ, (x - (c.n1 + 1) / 2) ^ 2 = ((c.n1 - 1) / 2 : ℝ) ^ 2 → (y - (c.n2 + 1) / 2) ^ 2 = ((c.n2 - 1) / 2 : ℝ) ^ 2 →
      g ((a * (x - (c.n1 + 1) / 2)) ^ 2 + (b * (y - (c.n2 + 1) / 2)) ^ 2) <
        g ((a * (c.n1 + 1 / 2 - (c.n1 + 1) / 2)) ^ 2 + (b * (c.n2 + 1 / 2 - (c.n2 + 1) / 2)) ^ 2) := by
    intro x y hx hy
    refine strict _ _ (by positivity) ?_
    rw [mul_pow, mul_pow, mul_pow, mul_pow, hx, hy]
    have k1 : ((c.n1 - 1) / 2 : ℝ) ^ 2 < ((c.n1 : ℝ) + 1 / 2 - (c.n1 + 1) / 2) ^ 2 := by nlinarith
    have k2 : ((c.n2 - 1) / 2 : ℝ) ^ 2 ≤ ((c.n2 : ℝ) + 1 / 2 - (c.n2 + 1) / 2) ^ 2 := by nlinarith
    have := mul_lt_mul_of_pos_left k1 ha2
    have := mul_le_mul_of_nonneg_left k2 (sq_nonneg b)
    linarith
  refine max_lt (max_lt (max_lt (lt _ _ ?_ ?_) (lt _ _ ?_ ?_)) (lt _ _ ?_ ?_)) (lt _ _ ?_ ?_) <;> ring

/-- The hypotheses can be met: the plane itself. -/
example : Spec.Zenithal (fun d => d.1 ^ 2 + d.2 ^ 2) ⟨fun x y => some (2 * (x - ((3 : Nat) + 1) / 2), 1 * (y - ((5 : Nat) + 1) / 2)), 3, 5⟩
    (((3 : Nat) + 1) / 2) (((5 : Nat) + 1) / 2) 2 1 id ∧ (∀ s t : ℝ, 0 ≤ s → s < t → id s < id t) :=
  ⟨⟨fun x y => ⟨_, rfl, rfl⟩, fun s t _ h => h⟩, fun s t _ h => h⟩

/-- C138 is violated by maps in longitude and latitude that reach beyond a right angle from their reference direction: the
last pixel on the equator is farther away than the corners, and is not within the radius of the map. -/
theorem C138_equator_violates (l b : Nat) (d1 d2 : ℝ) (hl : π / 2 < l * d1) (hl' : l * d1 ≤ π) (hb0 : 0 < b * d2) (hb : b * d2 ≤ π / 2)
    (c : Chart) (h1 : c.n1 = 2 * l + 1) (h2 : c.n2 = 2 * b + 1)
    (hd : ∀ x y : ℝ, 1 ≤ x → x ≤ c.n1 → 1 ≤ y → y ≤ c.n2 → c.dir x y = some ((l + 1 - x) * d1, (y - (b + 1)) * d2))
    (sep : Dir → ℝ) (hs : ∀ d, sep d = arccos (cos d.2 * cos d.1)) :
    ∃ d, c.dir c.n1 ((b + 1 : Nat) : ℝ) = some d ∧ ¬ within sep (cornerRadius sep c) d := by
  have e1 : (c.n1 : ℝ) = 2 * l + 1 := by rw [h1]; push_cast; ring
  have e2 : (c.n2 : ℝ) = 2 * b + 1 := by rw [h2]; push_cast; ring
  have l0 : (0 : ℝ) ≤ l := Nat.cast_nonneg _
  have b0 : (0 : ℝ) ≤ b := Nat.cast_nonneg _
  refine ⟨_, hd _ _ (by rw [e1]; linarith) le_rfl (by push_cast; linarith) (by rw [e2]; push_cast; linarith), ?_⟩
  unfold within
  rw [not_le, cornerRadius_eq, skyDir_some (hd 1 1 le_rfl (by rw [e1]; linarith) le_rfl (by rw [e2]; linarith)),
    skyDir_some (hd 1 c.n2 le_rfl (by rw [e1]; linarith) (by rw [e2]; linarith) le_rfl),
    skyDir_some (hd c.n1 c.n2 (by rw [e1]; linarith) le_rfl (by rw [e2]; linarith) le_rfl),
    skyDir_some (hd c.n1 1 (by rw [e1]; linarith) le_rfl le_rfl (by rw [e2]; linarith))]
  simp only [hs, e1, e2]
  have a1 : ((l : ℝ) + 1 - 1) * d1 = l * d1 := by ring
  have a2 : ((l : ℝ) + 1 - (2 * l + 1)) * d1 = -(l * d1) := by ring
  have a3 : ((1 : ℝ) - (b + 1)) * d2 = -(b * d2) := by ring
  have a4 : ((2 * (b : ℝ) + 1) - (b + 1)) * d2 = b * d2 := by ring
  have a5 : (((b + 1 : Nat) : ℝ) - (b + 1)) * d2 = 0 := by push_cast; ring
  rw [a1, a2, a3, a4, a5]
  simp only [cos_neg, cos_zero, one_mul, max_self]
  have hc : cos (l * d1) < 0 := cos_neg_of_pi_div_two_lt_of_lt hl (by linarith [pi_pos])
  have hcb : cos (b * d2) < 1 := by
    have := cos_lt_cos_of_nonneg_of_le_pi (x := 0) (y := b * d2) le_rfl (by linarith [pi_pos]) hb0
    rwa [cos_zero] at this
  have hcb0 : 0 ≤ cos (b * d2) := cos_nonneg_of_neg_pi_div_two_le_of_le (by linarith [pi_pos]) hb
  apply arccos_lt_arccos (neg_one_le_cos _)
  · nlinarith
  · nlinarith [cos_le_one (b * d2)]

/-- The hypotheses can be met: 201 columns and 121 rows of a degree. -/
example : π / 2 < (100 : Nat) * (π / 180) ∧ (100 : Nat) * (π / 180) ≤ π ∧ 0 < (60 : Nat) * (π / 180) ∧ (60 : Nat) * (π / 180) ≤ π / 2 := by
  have := pi_pos
  push_cast
  refine ⟨?_, ?_, ?_, ?_⟩ <;> linarith

/-- C138 is violated by maps whose corners are not on the sky (an all-sky map in an elliptical frame): their directions are
taken to be the origin of the coordinates.  With the reference direction there the radius is zero, and a source with such a
map is taken for one without extent: over the whole sky its counts are computed from a map of ten degrees around the
reference direction. -/
theorem C138_corners_violates (c : Chart) (sep : Dir → ℝ) (h0 : sep (0, 0) = 0)
    (hc : c.dir 1 1 = none ∧ c.dir 1 c.n2 = none ∧ c.dir c.n1 c.n2 = none ∧ c.dir c.n1 1 = none) :
    cornerRadius sep c = 0 ∧ (∀ d, 0 < sep d → ¬ within sep (cornerRadius sep c) d) ∧
      method (sourceRadius (cornerRadius sep c)) 180 = .ok (.sparse 0) ∧
      ∀ s : ℝ, 0 < s → (half false 0 s : ℝ) * s ≤ 10 := by
  have e : cornerRadius sep c = 0 := by
    rw [cornerRadius_eq]
    unfold skyDir
    rw [hc.1, hc.2.1, hc.2.2.1, hc.2.2.2]
    simp [h0]
  refine ⟨e, fun d hd => ?_, ?_, fun s hs => ?_⟩
  · unfold within; rw [e]; exact not_le.2 hd
  · rw [e]
    unfold sourceRadius method neededSize native
    norm_num
  · have := half_le false hs (le_refl (0 : ℝ))
    simpa using this

/-- The hypotheses can be met. -/
example : ∃ (c : Chart) (sep : Dir → ℝ), sep (0, 0) = 0 ∧ c.n1 = 324 ∧
    (c.dir 1 1 = none ∧ c.dir 1 c.n2 = none ∧ c.dir c.n1 c.n2 = none ∧ c.dir c.n1 1 = none) ∧ c.dir 162 81 = some (10, 0) := by
  classical
  refine ⟨⟨fun x y => if y = 81 then some (10, 0) else none, 324, 162⟩, fun d => arccos (cos d.2 * cos d.1), by simp, rfl, ?_, by simp⟩
  norm_num

/-! ### The method and the geometry -/

/-- C138.  The method: the whole sky in healpix pixels if both the source and the counts map are large, otherwise a map in
the plane, around the source if the counts map is the sky, around the counts map if not.  The case of two large maps, which
has no map in the plane, does not arise. -/
theorem C138_method (src map : ℝ) :
    (45 < src ∧ 45 < map → method src map = .ok .healpix) ∧
    (¬ (45 < src ∧ 45 < map) → 90 ≤ map → method src map = .ok (.sparse src)) ∧
    (¬ (45 < src ∧ 45 < map) → map < 90 → method src map = .ok (.part map)) := by
  have key : 45 < neededSize src map ↔ 45 < src ∧ 45 < map := by
    unfold neededSize
    split_ifs with h
    · exact ⟨fun k => ⟨k, by linarith⟩, fun k => k.1⟩
    · exact ⟨fun k => ⟨by linarith, k⟩, fun k => k.2⟩
  unfold method
  refine ⟨fun h => by rw [if_pos (key.2 h)], fun h hm => ?_, fun h hm => ?_⟩
  · rw [if_neg (mt key.1 h)]
    unfold native
    rw [if_pos hm, if_neg]
    intro hs
    exact h ⟨by linarith, by linarith⟩
  · rw [if_neg (mt key.1 h)]
    unfold native
    rw [if_neg (by linarith)]

/-- The cases arise. -/
example : ((45 : ℝ) < 180 ∧ (45 : ℝ) < 60) ∧ ¬ ((45 : ℝ) < 5 ∧ (45 : ℝ) < 180) ∧ ¬ ((45 : ℝ) < 180 ∧ (45 : ℝ) < 20) := by norm_num

/-- C138, in part: for a source with a map, a radius of at most 45 degrees and pixels of at most six degrees, the map in the
plane has a place for every direction within the radius. -/
theorem C138_covers_partial (radius c theta phi : ℝ) (hr : radius ≤ 45) (hc : 0 < c) (hc6 : c ≤ 6) (h0 : 0 ≤ theta)
    (ht : theta ≤ radius) : Spec.OnMap (2 * half false radius c) (position (half false radius c) c theta phi) := by
  have h1 := le_stg h0 (by linarith)
  have h2 := stg_le h0 (by linarith)
  have h3 := lt_half false (radius := radius) hc
  have h4 : min 180 (radius + if false then c else 10) = radius + 10 := by
    simp only [Bool.false_eq_true, if_false]
    exact min_eq_right (by linarith)
  rw [h4] at h3
  exact position_on hc (h0.trans h1) (by linarith)

/-- The hypotheses can be met. -/
example : (20 : ℝ) ≤ 45 ∧ (0 : ℝ) < 0.2 ∧ (0.2 : ℝ) ≤ 6 ∧ (0 : ℝ) ≤ 20 ∧ (20 : ℝ) ≤ 20 := by norm_num

/-- C138 is violated by larger counts maps: for a source with a map of at most 45 degrees in a counts map of 85, a direction
at the border of the counts map is not on the map in the plane, and its pixel gets nothing, whatever is there. -/
theorem C138_large_violates (src c energy : ℝ) (garbage : ℤ) (image : List (List ℝ)) (hs : src ≤ 45) (hc : 0 < c)
    (hg : isPeriodic garbage (-c) = false) :
    method src 85 = .ok (.part 85) ∧
      listed (plane garbage (half false 85 c) c energy image) (half false 85 c) c 85 (π / 2) = .ok 0 := by
  refine ⟨(C138_method src 85).2.2 (fun h => absurd h.1 (by linarith)) (by norm_num), ?_⟩
  have h1 := stg_ge (t := 85) (by norm_num) (by norm_num)
  have h2 := half_le false hc (show (0 : ℝ) ≤ 85 by norm_num)
  have h3 : (half false 85 c : ℝ) * c < stg 85 := by
    simp only [Bool.false_eq_true, if_false] at h2
    norm_num at h1
    linarith
  exact plane_off _ _ _ hg (position_off hc h3)

/-- The hypotheses can be met. -/
example : isPeriodic 0 (-0.5) = false := by
  unfold isPeriodic Wcs.myRound Wcs.trunc
  norm_num

/-- C138 is violated by sources with a spatial function: their map in the plane is wider than the counts map by a pixel only,
the projection by more.  In a counts map of 45 degrees, with pixels of up to a degree, a direction at the border gets
nothing, whatever is there. -/
theorem C138_function_violates (src c energy : ℝ) (garbage : ℤ) (image : List (List ℝ)) (hc : 0 < c) (hc1 : c ≤ 1)
    (hg : isPeriodic garbage (-c) = false) :
    method src 45 = .ok (.part 45) ∧
      listed (plane garbage (half true 45 c) c energy image) (half true 45 c) c 45 (π / 2) = .ok 0 := by
  refine ⟨(C138_method src 45).2.2 (fun h => absurd h.2 (by norm_num)) (by norm_num), ?_⟩
  have h1 := stg_ge (t := 45) (by norm_num) (by norm_num)
  have h2 := half_le true hc (show (0 : ℝ) ≤ 45 by norm_num)
  have h3 : (half true 45 c : ℝ) * c < stg 45 := by
    simp only [if_true] at h2
    norm_num at h1
    linarith
  exact plane_off _ _ _ hg (position_off hc h3)

/-- C138 is violated by a spatial function in a counts map of the sky: the map in the plane is as wide as the source without
the point-spread function.  A healpix pixel farther away than that gets nothing, whatever the wings of the convolved source
are. -/
theorem C138_wings_violates (w c : ℝ) (hw : 0 ≤ w) (hw45 : w ≤ 45) (hc : 0 < c) (npix : Nat) (sepOf : Nat → Nat → ℝ) (tgt : Nat → Nat → Nat)
    (v : Nat → Nat → ℝ) (ht : ∀ i j, i < 2 * half true w c → j < 2 * half true w c → tgt i j < npix)
    (hs : ∀ i j, i < 2 * half true w c → j < 2 * half true w c → 0 ≤ sepOf i j ∧ sepOf i j < 180 ∧ stg (sepOf i j) =
      c * √(((i : ℝ) + 1 - (2 * half true w c + 1) / 2) ^ 2 + ((j : ℝ) + 1 - (2 * half true w c + 1) / 2) ^ 2))
    (a : Nat) (ha : a < npix) (far : ∀ i j, tgt i j = a → 2 * (w + c) < sepOf i j) :
    method w 180 = .ok (.sparse w) ∧
      ∃ m, DiffMap.fillAll (2 * half true w c) (2 * half true w c) npix tgt v = .ok m ∧ m[a]? = some 0 := by
  refine ⟨(C138_method w 180).2.1 (fun h => absurd h.1 (by linarith)) (by norm_num), ?_⟩
  obtain ⟨m, h1, -, h2, -⟩ := DiffMap.C91_sum _ _ npix tgt v ht
  refine ⟨m, h1, ?_⟩
  rw [h2 a ha]
  congr 1
  refine Finset.sum_eq_zero fun i hi => Finset.sum_eq_zero fun j hj => if_neg fun he => ?_
  have hi := Finset.mem_range.1 hi
  have hj := Finset.mem_range.1 hj
  obtain ⟨k1, k2, k3⟩ := hs i j hi hj
  have k4 := far i j he
  have k5 := le_stg k1 k2
  have k6 := half_le true hc hw
  simp only [if_true] at k6
  set H : ℝ := (half true w c : ℝ) with hH
  have hi' : (i : ℝ) + 1 ≤ 2 * H := by rw [hH]; exact_mod_cast hi
  have hj' : (j : ℝ) + 1 ≤ 2 * H := by rw [hH]; exact_mod_cast hj
  have i0 : (0 : ℝ) ≤ i := Nat.cast_nonneg _
  have j0 : (0 : ℝ) ≤ j := Nat.cast_nonneg _
  have k7 : √(((i : ℝ) + 1 - (2 * H + 1) / 2) ^ 2 + ((j : ℝ) + 1 - (2 * H + 1) / 2) ^ 2) ≤ 2 * H := by
    rw [sqrt_le_left (by linarith)]
    nlinarith
  have k8 : stg (sepOf i j) ≤ c * (2 * H) := by rw [k3]; gcongr
  nlinarith

/-- The hypotheses can be met: a source of two degrees with pixels of a degree, all of whose places are in the first of two
healpix pixels. -/
example : ∃ (sepOf : Nat → Nat → ℝ) (tgt : Nat → Nat → Nat), (∀ i j, i < 2 * half true 2 1 → j < 2 * half true 2 1 → tgt i j < 2) ∧
    (∀ i j, i < 2 * half true 2 1 → j < 2 * half true 2 1 → 0 ≤ sepOf i j ∧ sepOf i j < 180 ∧ stg (sepOf i j) =
      1 * √(((i : ℝ) + 1 - (2 * half true 2 1 + 1) / 2) ^ 2 + ((j : ℝ) + 1 - (2 * half true 2 1 + 1) / 2) ^ 2)) ∧
    ∀ i j, tgt i j = 1 → 2 * (2 + 1) < sepOf i j := by
  have hp := pi_pos
  refine ⟨fun i j => 360 / π * arctan (π / 360 * (1 * √(((i : ℝ) + 1 - (2 * half true 2 1 + 1) / 2) ^ 2 +
    ((j : ℝ) + 1 - (2 * half true 2 1 + 1) / 2) ^ 2))), fun _ _ => 0, fun _ _ _ _ => by norm_num, fun i j _ _ => ?_, fun i j h => by cases h⟩
  set r := (1 : ℝ) * √(((i : ℝ) + 1 - (2 * half true 2 1 + 1) / 2) ^ 2 + ((j : ℝ) + 1 - (2 * half true 2 1 + 1) / 2) ^ 2) with hr
  have r0 : 0 ≤ r := by positivity
  have h1 : 0 ≤ arctan (π / 360 * r) := arctan_nonneg.2 (by positivity)
  have h2 := arctan_lt_pi_div_two (π / 360 * r)
  refine ⟨by positivity, ?_, ?_⟩
  · have := mul_lt_mul_of_pos_left h2 (show 0 < 360 / π by positivity)
    calc _ < 360 / π * (π / 2) := this
      _ = 180 := by field_simp; norm_num
  · unfold stg
    have : 360 / π * arctan (π / 360 * r) * π / 360 = arctan (π / 360 * r) := by field_simp
    rw [this, tan_arctan]
    field_simp

/-- C138, in part: with resampling the pixels of the map in the plane are not larger than those of the counts map as long as
those of the source's map are not larger by more than the factor. -/
theorem C138_step_partial (source rebinned data factor : ℝ) (hd : 0 < data) (h1 : 1 ≤ factor) (hs : source ≤ factor * data) :
    step source rebinned data true factor ≤ data := by
  unfold step
  simp only [if_true]
  have hf : factor ≤ max factor (DiffMap.resampFactor true factor data rebinned) := le_max_left _ _
  rw [div_le_iff₀ (by linarith)]
  apply max_le
  · nlinarith
  · nlinarith

/-- The hypotheses can be met. -/
example : (0 : ℝ) < 0.2 ∧ (1 : ℝ) ≤ 2 ∧ (0.4 : ℝ) ≤ 2 * 0.2 := by norm_num

/-- C138 is violated without resampling: the pixels of the map in the plane are then those of the source's map if these are
the larger ones, and of the healpix pixels of the sky, which get the values of the pixels that fall into them, some get
none: all those in excess of the number of pixels of the map. -/
theorem C138_holes_violates (source rebinned data factor : ℝ) (h : data < source) :
    step source rebinned data false factor = source ∧
      ∀ (n npix : Nat) (tgt : Nat → Nat → Nat) (v : Nat → Nat → ℝ), (∀ i j, i < n → j < n → tgt i j < npix) →
        n * n < npix → ∃ m, DiffMap.fillAll n n npix tgt v = .ok m ∧ ∃ a < npix, m[a]? = some 0 := by
  refine ⟨by unfold step; simp [max_eq_left h.le], fun n npix tgt v ht hn => ?_⟩
  obtain ⟨m, h1, -, h2, -⟩ := DiffMap.C91_sum n n npix tgt v ht
  have : ∃ a ∈ Finset.range npix, a ∉ (Finset.range n ×ˢ Finset.range n).image (fun p => tgt p.1 p.2) := by
    apply Finset.exists_mem_notMem_of_card_lt_card
    calc _ ≤ (Finset.range n ×ˢ Finset.range n).card := Finset.card_image_le
      _ = n * n := by simp
      _ < npix := hn
      _ = _ := by simp
  obtain ⟨a, ha, hna⟩ := this
  refine ⟨m, h1, a, Finset.mem_range.1 ha, ?_⟩
  rw [h2 a (Finset.mem_range.1 ha)]
  congr 1
  refine Finset.sum_eq_zero fun i hi => Finset.sum_eq_zero fun j hj => if_neg fun he => hna ?_
  exact Finset.mem_image.2 ⟨(i, j), Finset.mem_product.2 ⟨hi, hj⟩, he⟩

/-- The hypotheses can be met. -/
example : (0.1 : ℝ) < 0.5 ∧ ∀ i j, i < 3 → j < 3 → (fun i j => 3 * i + j) i j < 12 := by
  refine ⟨by norm_num, fun i j hi hj => ?_⟩
  simp only
  omega

/-- C138 is violated by the flag of a map in the plane: it is decided with a number of columns that is not set.  The same
map has one or another value at a position beside it, as the memory happened to be. -/
theorem C138_flag_violates : ∃ (h : Nat) (c energy : ℝ) (image : List (List ℝ)) (p : ℝ × ℝ) (g1 g2 : ℤ),
    (plane g1 h c energy image).plane (some p) 0 = .ok 0 ∧ (plane g2 h c energy image).plane (some p) 0 = .ok 7 := by
  have f1 : isPeriodic 0 (-1) = false := by
    unfold isPeriodic Wcs.myRound Wcs.trunc
    norm_num
  have t360 : Wcs.trunc (-360) = -360 := by
    unfold Wcs.trunc
    rw [if_neg (by norm_num)]
    have : (-360 : ℝ) = ((-360 : ℤ) : ℝ) := by norm_num
    rw [this, Int.ceil_intCast]
  have f2 : isPeriodic 360 (-1) = true := by
    unfold isPeriodic Wcs.myRound
    have : ((360 : ℤ) : ℝ) * -1 = -360 := by norm_num
    rw [this, t360]
    norm_num
  refine ⟨1, 1, 100, [[7, 7], [7, 7]], (3, 2), 0, 360, ?_, ?_⟩
  · unfold plane Wcs.Map.plane Wcs.Map.checkIndex
    simp only [f1]
    norm_num
  · have t1 : Wcs.trunc (1 : ℝ) = 1 := by unfold Wcs.trunc; rw [if_pos (by norm_num)]; exact Int.floor_one
    have t2 : Wcs.trunc (2 : ℝ) = 2 := by
      unfold Wcs.trunc; rw [if_pos (by norm_num)]
      have : (2 : ℝ) = ((2 : ℤ) : ℝ) := by norm_num
      rw [this, Int.floor_intCast]
    have t3 : Wcs.trunc (3 / 2 : ℝ) = 1 := by
      unfold Wcs.trunc; rw [if_pos (by norm_num)]
      rw [Int.floor_eq_iff]; norm_num
    have hf : Wcs.fmod 3 2 = 1 := by unfold Wcs.fmod; rw [t3]; norm_num
    unfold plane Wcs.Map.plane Wcs.Map.checkIndex
    simp only [f2]
    norm_num [hf, t1, t2, Wcs.Map.pixelValue, Wcs.Map.checkIndex, Wcs.myRound, Wcs.Map.at]

/-! ### Counts maps in healpix pixels -/

/-- C138.  For a map from a file with a region smaller than the sky the two ways to count pixels fit together, and the map
is not taken for the sky; without a region the pixels are counted as they are. -/
theorem C138_indices (pixels : List Nat) (hn : pixels.Nodup) :
    (∀ r, r < 180 → ∀ i (hi : i < pixels.length), toGlobal (ofFile (some r) pixels) i = .ok (pixels[i] : ℤ) ∧
      toLocal (ofFile (some r) pixels) pixels[i] = .ok (i : ℤ)) ∧
    (∀ i, toGlobal (ofFile none pixels) i = .ok (i : ℤ) ∧ toLocal (ofFile none pixels) i = .ok (i : ℤ)) := by
  constructor
  · intro r hr i hi
    have ha : allSky (ofFile (some r) pixels) = .ok false := by
      unfold allSky ofFile
      simp only [Option.getD_some]
      rw [decide_eq_false (by linarith)]
    refine ⟨?_, ?_⟩
    · unfold toGlobal
      rw [ha, Res.bind_ok]
      simp [ofFile, List.getElem?_eq_getElem hi]
    · unfold toLocal
      rw [ha, Res.bind_ok]
      have : pixels.findIdx? (· == pixels[i]) = some i := by
        rw [List.findIdx?_eq_some_iff_getElem]
        refine ⟨hi, by simp, fun j hj => ?_⟩
        simp only [beq_iff_eq, Bool.not_eq_true, beq_eq_false_iff_ne, ne_eq]
        intro he
        have := (List.Nodup.getElem_inj_iff hn).1 he
        omega
      simp [ofFile, this]
  · intro i
    have ha : allSky (ofFile none pixels) = .ok true := by
      unfold allSky ofFile
      simp
    unfold toGlobal toLocal
    rw [ha]
    simp [Res.bind_ok]

/-- The hypothesis can be met. -/
example : [5, 9, 2].Nodup := by decide

/-- C138 is violated by copies: the radius is not copied.  Whether a copy is a map of the sky, the numbers of its pixels and
the method for its sources then depend on what the memory held. -/
theorem C138_copy_violates (region : Option ℝ) (pixels : List Nat) (i : Nat) (src : ℝ) :
    allSky (copy (ofFile region pixels)) = .ub ∧ toGlobal (copy (ofFile region pixels)) i = .ub ∧
      toLocal (copy (ofFile region pixels)) i = .ub ∧ methodFor src (copy (ofFile region pixels)) = .ub ∧
      ∃ r, methodFor src (ofFile region pixels) = method src r := by
  refine ⟨rfl, rfl, rfl, rfl, ⟨region.getD 180, rfl⟩⟩

end Verif.MapSize
