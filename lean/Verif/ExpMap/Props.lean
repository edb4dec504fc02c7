import Verif.ExpMap.Lemmas
set_option linter.unusedSectionVars false
set_option linter.unusedSimpArgs false
set_option linter.unusedVariables false
/-
C83: the file of an exposure map.
-/
namespace Verif.ExpMap
open Verif Verif.Vec Real Spec

/-- The energies of the planes go from the lower to the upper limit in equal logarithmic steps, if
there are at least two. -/
theorem C83_energies_partial {emin emax : ℝ} {ne : Nat} (h0 : 0 < emin) (h1 : emin < emax) (hn : 2 ≤ ne) :
    ∃ es, mapEnergies emin emax ne = some es ∧ es.length = ne ∧ LogGrid emin emax es := by
  have hne : (0 : ℝ) < (ne : ℝ) - 1 := by
    have : (2 : ℝ) ≤ ne := by exact_mod_cast hn
    linarith
  have hl : 0 < log (emax / emin) := log_pos (by rwa [one_lt_div h0])
  have hs : 0 < log (emax / emin) / ((ne : ℝ) - 1) := div_pos hl hne
  refine ⟨_, by unfold mapEnergies estep; rw [if_neg (by omega)], by simp, ?_, ?_, ?_, ?_⟩
  · rw [List.head?_map, List.head?_range, if_neg (by omega)]
    simp
  · rw [List.getLast?_map, List.getLast?_range, if_neg (by omega)]
    simp only [Option.map_some, Option.some.injEq]
    rw [Nat.cast_sub (by omega), Nat.cast_one, div_mul_cancel₀ _ hne.ne', exp_log (div_pos (h0.trans h1) h0),
      mul_div_cancel₀ _ h0.ne']
  · rw [List.pairwise_map]
    refine List.pairwise_lt_range.imp fun {a b} hab => ?_
    have : (a : ℝ) < b := by exact_mod_cast hab
    exact mul_lt_mul_of_pos_left (exp_lt_exp.2 (mul_lt_mul_of_pos_left this hs)) h0
  · refine ⟨exp (log (emax / emin) / ((ne : ℝ) - 1)), fun k hk => ?_⟩
    rw [List.getElem_map, List.getElem_map, List.getElem_range, List.getElem_range, Nat.cast_add, Nat.cast_one,
      mul_add, mul_one, exp_add]
    ring

example : ∃ es, mapEnergies 100 10000 3 = some es ∧ es.length = 3 ∧ LogGrid 100 10000 es :=
  C83_energies_partial (by norm_num) (by norm_num) (by norm_num)

/-- With a single energy the step is infinite and there is no energy. -/
theorem C83_single_violates (emin emax : ℝ) : mapEnergies emin emax 1 = none := by
  simp [mapEnergies, estep]

/-- With an even number of pixels the first is `r` before the centre of the region and the last is
`r` after it, and neighbours are equally far apart. -/
theorem C83_centre_partial (r : ℝ) {n : Nat} (hn : Even n) (h0 : 0 < n) :
    offset r n 1 = some (-r) ∧ offset r n n = some r ∧
      ∃ step, ∀ p, ∃ x, offset r n p = some x ∧ offset r n (p + 1) = some (x + step) := by
  obtain ⟨m, rfl⟩ := hn
  have hm : (0 : ℝ) < 2 * (m : ℝ) - 1 := by
    have : (1 : ℝ) ≤ m := by exact_mod_cast (show 1 ≤ m by omega)
    linarith
  have hne : (((m + m : Nat) : ℝ) - 1) ≠ 0 := by push_cast; linarith
  have hc : cdelt r (m + m) = some (2 * r / (((m + m : Nat) : ℝ) - 1)) := by
    unfold cdelt; rw [if_neg (by omega)]
  have hp : crpix (m + m) = m + 0.5 := by unfold crpix; rw [show (m + m) / 2 = m by omega]
  refine ⟨?_, ?_, 2 * r / (((m + m : Nat) : ℝ) - 1), fun p => ⟨_, by unfold offset; rw [hc], ?_⟩⟩
  · unfold offset; rw [hc, hp]
    simp only [Option.some.injEq]
    rw [mul_div_assoc', div_eq_iff hne]
    push_cast; ring
  · unfold offset; rw [hc, hp]
    simp only [Option.some.injEq]
    rw [mul_div_assoc', div_eq_iff hne]
    push_cast; ring
  · unfold offset; rw [hc, hp]
    simp only [Option.some.injEq]
    push_cast; ring

example : offset 30 60 1 = some (-30) := (C83_centre_partial 30 (n := 60) ⟨30, rfl⟩ (by norm_num)).1

/-- With an odd number of pixels the map is displaced by half a pixel: it ends `r + r / (n - 1)`
after the centre and starts only `r - r / (n - 1)` before it. -/
theorem C83_centre_violates (r : ℝ) {n : Nat} (hn : Odd n) (h0 : 1 < n) :
    offset r n 1 = some (-r + r / ((n : ℝ) - 1)) ∧ offset r n n = some (r + r / ((n : ℝ) - 1)) := by
  obtain ⟨m, rfl⟩ := hn
  have hm : (0 : ℝ) < (m : ℝ) := by exact_mod_cast (show 0 < m by omega)
  have hne : (((2 * m + 1 : Nat) : ℝ) - 1) ≠ 0 := by push_cast; linarith
  have hc : cdelt r (2 * m + 1) = some (2 * r / (((2 * m + 1 : Nat) : ℝ) - 1)) := by
    unfold cdelt; rw [if_neg (by omega)]
  have hp : crpix (2 * m + 1) = m + 0.5 := by unfold crpix; rw [show (2 * m + 1) / 2 = m by omega]
  constructor
  · unfold offset; rw [hc, hp]
    simp only [Option.some.injEq]
    field_simp
    push_cast; ring
  · unfold offset; rw [hc, hp]
    simp only [Option.some.injEq]
    field_simp
    push_cast; ring

example : offset 30 61 1 = some (-30 + 30 / (((61 : Nat) : ℝ) - 1)) :=
  (C83_centre_violates 30 (n := 61) ⟨30, rfl⟩ (by norm_num)).1

variable {nlon nlat ne : Nat} {f : Nat → Nat → List ℝ}

/-- The image holds the exposure of each pixel of the range that was asked for, and zero elsewhere;
computing it never fails, whatever the range. -/
theorem C83_image (hf : ∀ i j, (f i j).length = ne) (sub : Option Sub) :
    ∃ m, computeMap nlon nlat ne sub f = .ok m ∧ m.length = nlon * nlat * ne ∧
      ∀ i j k, i < nlon → j < nlat → k < ne →
        ((∀ s, sub = some s → InRange s.imin s.imax s.jmin s.jmax i j) →
          m[place nlon nlat i j k]? = (f (i + 1) (j + 1))[k]?) ∧
        ((∃ s, sub = some s ∧ ¬ InRange s.imin s.imax s.jmin s.jmax i j) →
          m[place nlon nlat i j k]? = some 0) := by
  obtain ⟨m, h1, h2, h3⟩ := computeMap_inv (nlon := nlon) (nlat := nlat) (fun i j => (hf i j).ge) sub
  refine ⟨m, h1, by rw [h2]; ring, fun i j k hi hj hk => ?_⟩
  have hb := bounds_in sub hi hj
  obtain ⟨g1, g2⟩ := h3 k j i hk hj hi
  simp only [hb] at g1 g2
  rw [place_eq, getElem?_val (by rw [h2]; exact place_lt hi hj hk)]
  refine ⟨fun h => ?_, ?_⟩
  · rw [g1 h, getElem?_val (by rw [hf]; exact hk)]
  · rintro ⟨s, hs, hn⟩
    rw [g2 (fun h => hn (h s hs))]

example : ∃ m, computeMap 3 2 2 (some ⟨-5, 2, 1, 9⟩) (fun i j => [(i : ℝ), j]) = .ok m ∧ m.length = 12 ∧
    m[place 3 2 1 1 0]? = some 2 ∧ m[place 3 2 1 1 1]? = some 2 ∧ m[place 3 2 2 1 0]? = some 0 := by
  obtain ⟨m, h1, h2, h3⟩ := C83_image (nlon := 3) (nlat := 2) (ne := 2) (f := fun i j => [(i : ℝ), j])
    (fun _ _ => rfl) (some ⟨-5, 2, 1, 9⟩)
  refine ⟨m, h1, h2, ?_, ?_, ?_⟩
  · rw [(h3 1 1 0 (by norm_num) (by norm_num) (by norm_num)).1 (by rintro s hs; cases hs; simp [InRange])]
    norm_num
  · rw [(h3 1 1 1 (by norm_num) (by norm_num) (by norm_num)).1 (by rintro s hs; cases hs; simp [InRange])]
    norm_num
  · rw [(h3 2 1 0 (by norm_num) (by norm_num) (by norm_num)).2 ⟨_, rfl, by simp [InRange]⟩]

/-- Pieces of a map that together have every pixel once add up to the whole map. -/
theorem C83_pieces (hf : ∀ i j, (f i j).length = ne) {subs : List Sub}
    (hone : ∀ i j, i < nlon → j < nlat →
      open Classical in subs.countP (fun s => decide (InRange s.imin s.imax s.jmin s.jmax i j)) = 1)
    {pieces : List (List ℝ)}
    (hp : List.Forall₂ (fun s m => computeMap nlon nlat ne (some s) f = .ok m) subs pieces)
    {whole : List ℝ} (hw : computeMap nlon nlat ne none f = .ok whole) {q : Nat} (hq : q < whole.length) :
    whole[q]? = some (pieces.map fun m => m[q]?.getD 0).sum := by
  obtain ⟨w, h1, h2, h3⟩ := computeMap_inv (nlon := nlon) (nlat := nlat) (fun i j => (hf i j).ge) none
  rw [hw] at h1
  cases h1
  -- the coordinates of the pixel
  rw [h2] at hq
  have hlon : 0 < nlon := by
    rcases Nat.eq_zero_or_pos nlon with h | h
    · subst h; simp at hq
    · exact h
  have hlat : 0 < nlat := by
    rcases Nat.eq_zero_or_pos nlat with h | h
    · subst h; simp at hq
    · exact h
  have e1 : q / nlon < ne * nlat := (Nat.div_lt_iff_lt_mul hlon).2 hq
  have hk : q / nlon / nlat < ne := (Nat.div_lt_iff_lt_mul hlat).2 e1
  have hj : q / nlon % nlat < nlat := Nat.mod_lt _ hlat
  have hi : q % nlon < nlon := Nat.mod_lt _ hlon
  have hq' : (q / nlon / nlat * nlat + q / nlon % nlat) * nlon + q % nlon = q := by
    rw [Nat.div_add_mod', Nat.div_add_mod']
  generalize q / nlon / nlat = k at hk hq'
  generalize q / nlon % nlat = j at hj hq'
  generalize q % nlon = i at hi hq'
  have hwv := (h3 k j i hk hj hi).1 ((bounds_in none hi hj).2 (by simp))
  rw [hq'] at hwv
  rw [getElem?_val (by rw [h2]; exact hq), hwv]
  congr 1
  have key : ∀ (subs : List Sub) (pieces : List (List ℝ)),
      List.Forall₂ (fun s m => computeMap nlon nlat ne (some s) f = .ok m) subs pieces →
      (pieces.map fun m => m[q]?.getD 0).sum =
        (open Classical in subs.countP (fun s => decide (InRange s.imin s.imax s.jmin s.jmax i j)) : ℝ) *
          val (f (i + 1) (j + 1)) k := by
    intro subs pieces h
    induction h with
    | nil => simp
    | @cons s m subs pieces hm _ ih =>
      obtain ⟨m', g1, g2, g3⟩ := computeMap_inv (nlon := nlon) (nlat := nlat) (fun i j => (hf i j).ge) (some s)
      rw [hm] at g1
      cases g1
      have hv := g3 k j i hk hj hi
      have hb := bounds_in (nlon := nlon) (nlat := nlat) (some s) hi hj
      simp only [Option.some.injEq, forall_eq'] at hb
      simp only [hb, hq'] at hv
      rw [List.map_cons, List.sum_cons, ih, List.countP_cons]
      by_cases hr : InRange s.imin s.imax s.jmin s.jmax i j
      · rw [show m[q]?.getD 0 = val m q from rfl, hv.1 hr]
        simp [hr]; ring
      · rw [show m[q]?.getD 0 = val m q from rfl, hv.2 hr]
        simp [hr]
  rw [key subs pieces hp, hone i j hi hj]
  simp

example : ∃ a b w : List ℝ, computeMap 4 2 1 (some ⟨0, 3, 0, 5⟩) (fun i j => [(i : ℝ) + j]) = .ok a ∧
    computeMap 4 2 1 (some ⟨3, 10, -1, 5⟩) (fun i j => [(i : ℝ) + j]) = .ok b ∧
    computeMap 4 2 1 none (fun i j => [(i : ℝ) + j]) = .ok w ∧
    ∀ q < w.length, w[q]? = some ([a, b].map fun m => m[q]?.getD 0).sum := by
  have hf : ∀ i j : Nat, ((fun i j : Nat => [(i : ℝ) + j]) i j).length = 1 := fun _ _ => rfl
  obtain ⟨a, ha, -⟩ := C83_image (nlon := 4) (nlat := 2) hf (some ⟨0, 3, 0, 5⟩)
  obtain ⟨b, hb, -⟩ := C83_image (nlon := 4) (nlat := 2) hf (some ⟨3, 10, -1, 5⟩)
  obtain ⟨w, hw, -⟩ := C83_image (nlon := 4) (nlat := 2) hf none
  refine ⟨a, b, w, ha, hb, hw, fun q hq => ?_⟩
  refine C83_pieces hf (fun i j hi hj => ?_) (.cons ha (.cons hb .nil)) hw hq
  have h1 : InRange 0 3 0 5 i j ↔ i < 3 := by unfold InRange; omega
  have h2 : InRange 3 10 (-1) 5 i j ↔ ¬ i < 3 := by unfold InRange; omega
  simp only [List.countP_cons, List.countP_nil, h1, h2]
  by_cases h : i < 3 <;> simp [h]

/-- What is read from the file of a whole map is, for each energy and pixel, the exposure that was
computed. -/
theorem C83_read (hf : ∀ i j, (f i j).length = ne) {m : List ℝ}
    (hm : computeMap nlon nlat ne none f = .ok m) :
    ∃ planes, readPlanes m (nlon * nlat) ne 0 = .ok planes ∧ planes.length = ne ∧
      ∀ i j k, i < nlon → j < nlat → k < ne →
        ∃ plane, planes[k]? = some plane ∧ plane[i + nlon * j]? = (f (i + 1) (j + 1))[k]? := by
  obtain ⟨w, h1, h2, h3⟩ := computeMap_inv (nlon := nlon) (nlat := nlat) (fun i j => (hf i j).ge) none
  rw [hm] at h1
  cases h1
  obtain ⟨ps, g1, g2, g3⟩ := readPlanes_eq (flat := m) (npix := nlon * nlat) (ne := ne) (indx := 0)
    (by rw [h2]; apply le_of_eq; ring)
  refine ⟨ps, g1, g2, fun i j k hi hj hk => ?_⟩
  obtain ⟨l, e1, e2, e3⟩ := g3 k hk
  have hij : i + nlon * j < nlon * nlat := by
    have := idx_lt (n := nlon) (p := i) (k := j) (m := nlat) hi hj
    rw [mul_comm nlon nlat, mul_comm nlon j, add_comm]; exact this
  refine ⟨l, e1, ?_⟩
  rw [getElem?_val (by rw [e2]; exact hij), e3 _ hij, getElem?_val (by rw [hf]; exact hk)]
  have := (h3 k j i hk hj hi).1 ((bounds_in none hi hj).2 (by simp))
  rw [← this]
  congr 2
  ring

example : ∃ m planes, computeMap 2 1 2 none (fun i j => [(i : ℝ), j]) = .ok m ∧
    readPlanes m 2 2 0 = .ok planes ∧ ∃ plane, planes[0]? = some plane ∧ plane[1]? = some 2 := by
  have hf : ∀ i j : Nat, ((fun i j : Nat => [(i : ℝ), (j : ℝ)]) i j).length = 2 := fun _ _ => rfl
  obtain ⟨m, hm, -⟩ := C83_image (nlon := 2) (nlat := 1) hf none
  obtain ⟨ps, h1, h2, h3⟩ := C83_read hf hm
  obtain ⟨p, e1, e2⟩ := h3 1 0 0 (by norm_num) (by norm_num) (by norm_num)
  refine ⟨m, ps, hm, h1, p, e1, ?_⟩
  rw [show 1 + 2 * 0 = 1 from rfl] at e2
  rw [e2]; norm_num

/-- A file with fewer values than pixels and energies is refused. -/
theorem C83_short {flat : List ℝ} {npix : Nat} (h : flat.length < ne * npix) :
    readPlanes flat npix ne 0 = .throws := by
  have hplane : ∀ n indx, indx ≤ flat.length → flat.length < indx + n → readPlane flat n indx = .throws := by
    intro n
    induction n with
    | zero => intro indx h1 h2; omega
    | succ n ih =>
      intro indx h1 h2
      rw [readPlane]
      rcases Nat.eq_or_lt_of_le h1 with e | e
      · have : vat flat indx = .throws := by unfold vat; rw [List.getElem?_eq_none (by omega)]
        rw [this, Res.bind_throws]
      · have : vat flat indx = .ok (val flat indx) := by unfold vat; rw [getElem?_val e]
        rw [this, Res.bind_ok, ih (indx + 1) (by omega) (by omega), Res.bind_throws]
  have key : ∀ ne indx, indx ≤ flat.length → flat.length < indx + ne * npix → readPlanes flat npix ne indx = .throws := by
    intro ne
    induction ne with
    | zero => intro indx h1 h2; omega
    | succ ne ih =>
      intro indx h1 h2
      rw [Nat.add_mul, Nat.one_mul] at h2
      rw [readPlanes]
      by_cases hc : indx + npix ≤ flat.length
      · obtain ⟨l, e1, -⟩ := readPlane_eq (flat := flat) (n := npix) (indx := indx) hc
        rw [e1, Res.bind_ok]
        simp only []
        rw [ih _ hc (by omega), Res.bind_throws]
      · rw [hplane npix indx h1 (by omega), Res.bind_throws]
  exact key ne 0 (Nat.zero_le _) (by omega)

example : readPlanes [1, 2, 3] 2 2 0 = .throws := C83_short (by norm_num)

end Verif.ExpMap
