import Verif.HpxMap.Lemmas
/-
C127: maps of the whole sky in equal-area pixels.
-/
set_option linter.unusedSectionVars false
set_option linter.unusedSimpArgs false
set_option linter.unusedVariables false
namespace Verif.HpxMap
open Spec Vec
variable {δ : Type}

/-! ### Maps from files -/

/-- A file with several columns, all of them images of the whole sky and as many as energies, is read: the images are the
columns in their order, the energies are those of the file, the integral over the sky of each image is the sum of its
pixels times their solid angle, the integral of the map is that over energy. -/
theorem C127_file (junk : Nat → ℝ) (f : File) (interp enforce : Bool) (hn : f.naxis = 2) (h2 : 2 ≤ f.cols.length)
    (he : f.energies.length = f.cols.length) (hw : ∀ c ∈ f.cols, c.2.length = pixels f.nside) :
    ∃ m, fromFile junk f interp enforce = .ok m ∧ m.energies = f.energies ∧
      m.planes = f.cols.map (fun c => ⟨f.nside, f.nest, c.2⟩) ∧
      m.integrals = f.cols.map (fun c => skyIntegral f.nside c.2) ∧
      m.total = energyIntegral f.energies (f.cols.map (fun c => skyIntegral f.nside c.2)) := by
  have hfe : fileEnergies f = f.energies := by
    unfold fileEnergies
    simp only [hn, if_true]
    rw [if_pos (by omega)]
  have hp : ((f.cols.filter fun c => dataColumn c.1).map Prod.snd).mapM (readColumn junk f) =
      .ok (f.cols.map (fun c => (⟨f.nside, f.nest, c.2⟩ : Plane))) := by
    rw [filter_data, mapM_ok (readColumn junk f) (fun v => (⟨f.nside, f.nest, v⟩ : Plane)) _ (by
      intro v hv
      obtain ⟨c, hc, rfl⟩ := List.mem_map.1 hv
      exact readColumn_whole junk f (hw c hc)), List.map_map]
    rfl
  have hcomp := computeIntegrals_ok (m := ⟨f.nside, f.nest, f.energies, f.cols.map (fun c => (⟨f.nside, f.nest, c.2⟩ : Plane)),
    [], 0, interp, enforce⟩) (by intro h; simp only at h; rw [h] at he; simp at he; omega) (by simp [he]) (by
      intro k hk
      simp only [List.getElem_map]
      exact hw _ (List.getElem_mem _))
  unfold fromFile
  rw [hp, Res.bind_ok, hfe]
  refine ⟨_, hcomp, ?_, ?_, ?_, ?_⟩
  · rfl
  · rfl
  · simp only
    rw [List.take_of_length_le (by simp [he]), List.map_map]
    rfl
  · simp only
    rw [List.take_of_length_le (by simp [he]), List.map_map]
    unfold totalOf
    cases hm : f.energies with
    | nil => rfl
    | cons e es =>
      cases es with
      | nil => rw [hm] at he; simp at he; omega
      | cons e' es => rfl

/-- The map at its energies and pixels is that of the file, whatever memory contained. -/
example : (∀ c ∈ ([("energy1".toList, List.replicate 12 1), ("energy2".toList, List.replicate 12 2)] : List (List Char × List ℝ)),
    c.2.length = pixels 1) ∧ 2 ≤ ([("energy1".toList, List.replicate 12 1), ("energy2".toList, List.replicate 12 2)] :
    List (List Char × List ℝ)).length := by
  refine ⟨?_, by simp⟩
  intro c hc
  simp only [List.mem_cons, List.not_mem_nil, or_false] at hc
  rcases hc with rfl | rfl <;> simp [pixels]

/-- Only columns of energies should be images.  Every column is: whatever is in front of the columns of energies (the
numbers of the pixels, for example) becomes the image of the first energy, and each column of energies the image of the
energy after its own. -/
theorem C127_column_violates (junk : Nat → ℝ) (f : File) (interp enforce : Bool) (hn : f.naxis = 2) (numbers : List ℝ)
    (cols : List (List Char × List ℝ)) (hc : f.cols = ("pix".toList, numbers) :: cols) (h1 : 1 ≤ cols.length)
    (he : f.energies.length = cols.length) (hl : numbers.length = pixels f.nside) (hw : ∀ c ∈ cols, c.2.length = pixels f.nside) :
    ∃ m, fromFile junk f interp enforce = .ok m ∧ m.energies = f.energies ∧ (∀ i, at' m 0 i = nth numbers i) ∧
      ∀ k i (c : List Char × List ℝ), cols[k]? = some c → at' m (k + 1) i = nth c.2 i := by
  have hfe : fileEnergies f = f.energies := by
    unfold fileEnergies
    simp only [hn, if_true]
    rw [if_pos (by rw [hc]; simp; omega)]
  have hp : ((f.cols.filter fun c => dataColumn c.1).map Prod.snd).mapM (readColumn junk f) =
      .ok (f.cols.map (fun c => (⟨f.nside, f.nest, c.2⟩ : Plane))) := by
    rw [filter_data, mapM_ok (readColumn junk f) (fun v => (⟨f.nside, f.nest, v⟩ : Plane)) _ (by
      intro v hv
      obtain ⟨c, hc', rfl⟩ := List.mem_map.1 hv
      rw [hc] at hc'
      rcases List.mem_cons.1 hc' with rfl | h
      · exact readColumn_whole junk f hl
      · exact readColumn_whole junk f (hw c h)), List.map_map]
    rfl
  have hcomp := computeIntegrals_ok (m := ⟨f.nside, f.nest, f.energies, f.cols.map (fun c => (⟨f.nside, f.nest, c.2⟩ : Plane)),
    [], 0, interp, enforce⟩) (by intro h; simp only at h; rw [h] at he; simp at he; omega) (by simp [he, hc]) (by
      intro k hk
      simp only [List.getElem_map]
      have hm := List.getElem_mem (l := f.cols) (n := k) (by simp only at hk; rw [hc]; simp; omega)
      generalize f.cols[k]'(by simp only at hk; rw [hc]; simp; omega) = c at hm
      rw [hc] at hm
      rcases List.mem_cons.1 hm with rfl | h
      · exact hl
      · exact hw c h)
  unfold fromFile
  rw [hp, Res.bind_ok, hfe]
  refine ⟨_, hcomp, ?_, ?_, ?_⟩
  · rfl
  · intro i
    unfold at' nth
    simp [hc]
  · intro k i c hk
    unfold at' nth
    simp [hc, hk]

/-- A file with fewer rows than pixels is taken for one of the first pixels of the sky, whatever pixels its rows are for,
and the other pixels are what memory contains: two runs give different maps. -/
theorem C127_partial_sky_violates (f : File) (interp enforce : Bool) (v w : List Char × List ℝ) (hc : f.cols = [v, w])
    (hn : f.naxis = 2) (he : f.energies.length = 2) (hv : v.2.length < pixels f.nside) (hw : w.2.length = v.2.length) (x : ℝ) :
    ∃ m, fromFile (fun _ => x) f interp enforce = .ok m ∧ at' m 0 v.2.length = x ∧ ∀ i < v.2.length, at' m 0 i = nth v.2 i := by
  have hfe : fileEnergies f = f.energies := by
    unfold fileEnergies
    simp only [hn, if_true]
    rw [if_pos (by rw [hc]; simp)]
  set g : List ℝ → Plane := fun u => ⟨f.nside, f.nest, u ++ ((List.range (pixels f.nside)).map (fun _ => x)).drop u.length⟩ with hg
  have hp : ((f.cols.filter fun c => dataColumn c.1).map Prod.snd).mapM (readColumn (fun _ => x) f) = .ok [g v.2, g w.2] := by
    rw [filter_data, hc, mapM_ok (readColumn (fun _ => x) f) g _ (by
      intro u hu
      simp only [List.map_cons, List.map_nil, List.mem_cons, List.not_mem_nil, or_false] at hu
      rcases hu with rfl | rfl
      · exact readColumn_eq _ f hv.le
      · exact readColumn_eq _ f (by omega))]
    rfl
  have hcomp := computeIntegrals_ok (m := ⟨f.nside, f.nest, f.energies, [g v.2, g w.2], [], 0, interp, enforce⟩)
    (by intro h; simp only at h; rw [h] at he; simp at he) (by simp [he]) (by
      intro k hk
      have hk2 : k < 2 := by simp only at hk; omega
      have : k = 0 ∨ k = 1 := by omega
      rcases this with rfl | rfl
      · simp [hg]; omega
      · simp [hg]; omega)
  unfold fromFile
  rw [hp, Res.bind_ok, hfe]
  refine ⟨_, hcomp, ?_, ?_⟩
  · unfold at'
    simp [hg, List.getElem?_append_right, List.getElem?_drop, hv]
  · intro i hi
    unfold at' nth
    simp only [List.getElem?_cons_zero, Option.bind_some, hg]
    rw [List.getElem?_append_left hi]

/-- More rows than pixels are written beyond the end of the image. -/
theorem C127_rows_violates (junk : Nat → ℝ) (f : File) (interp enforce : Bool) (c : List Char × List ℝ)
    (cols : List (List Char × List ℝ)) (hc : f.cols = c :: cols) (hl : pixels f.nside < c.2.length) :
    fromFile junk f interp enforce = .ub := by
  unfold fromFile
  rw [filter_data, hc, List.map_cons, List.mapM_cons, readColumn_long junk f hl]
  rfl

/-! ### Maps of sources -/

/-- The map of a source: each pixel has the value of the source at the centre of the pixel, a tiny negative value counts
as zero; the integral is the sum times the solid angle. -/
theorem C127_source (lib : Library δ) (dist : δ → ℝ) (nside : Nat) (nest : Bool) (energy : ℝ) (interp enforce : Bool)
    (h : ∀ i < pixels nside, -1e-10 < dist (lib.centre nside nest i)) :
    ∃ m, fromSource lib dist nside nest energy interp enforce = .ok m ∧ m.energies = [energy] ∧
      (∀ i < pixels nside, at' m 0 i = max 0 (dist (lib.centre nside nest i))) ∧
      m.integrals = [skyIntegral nside ((List.range (pixels nside)).map fun i => max 0 (dist (lib.centre nside nest i)))] ∧
      m.integrals = [m.total] := by
  have hcl : (List.range (12 * nside * nside)).map (fun i => clip (dist (lib.centre nside nest i))) =
      (List.range (pixels nside)).map (fun i => max 0 (dist (lib.centre nside nest i))) := by
    apply List.map_congr_left
    intro i hi
    rw [List.mem_range] at hi
    unfold clip
    have hi' := h i hi
    by_cases c : dist (lib.centre nside nest i) < 0
    · rw [if_pos ⟨c, hi'⟩, max_eq_left c.le]
    · rw [if_neg (fun q => c q.1), max_eq_right (not_lt.1 c)]
  have hchk : checkNegative ((List.range (pixels nside)).map (fun i => max 0 (dist (lib.centre nside nest i)))) = .ok ⟨⟩ := by
    unfold checkNegative
    rw [if_neg]
    rintro ⟨v, hv, hv0⟩
    obtain ⟨i, _, rfl⟩ := List.mem_map.1 hv
    exact absurd hv0 (not_lt.2 (le_max_left _ _))
  have hcomp := computeIntegrals_ok (m := ⟨nside, nest, [energy], [⟨nside, nest, (List.range (pixels nside)).map (fun i =>
    max 0 (dist (lib.centre nside nest i)))⟩], [], 0, interp, enforce⟩) (by simp) (by simp) (by
      intro k hk
      have : k = 0 := by simpa using hk
      subst this
      simp)
  unfold fromSource
  simp only [hcl]
  rw [hchk, Res.bind_ok]
  refine ⟨_, hcomp, ?_, ?_, ?_, ?_⟩
  · rfl
  · intro i hi
    unfold at'
    simp [hi]
  · simp
  · simp [totalOf]

/-- A source that is negative by more than that somewhere at the centres of the pixels has no map. -/
theorem C127_source_negative (lib : Library δ) (dist : δ → ℝ) (nside : Nat) (nest : Bool) (energy : ℝ) (interp enforce : Bool)
    (i : Nat) (hi : i < pixels nside) (h : dist (lib.centre nside nest i) ≤ -1e-10) :
    fromSource lib dist nside nest energy interp enforce = .throws := by
  unfold fromSource
  have : checkNegative ((List.range (12 * nside * nside)).map (fun i => clip (dist (lib.centre nside nest i)))) = .throws := by
    unfold checkNegative
    rw [if_pos]
    refine ⟨_, List.mem_map.2 ⟨i, List.mem_range.2 hi, rfl⟩, ?_⟩
    unfold clip
    rw [if_neg (fun q => absurd q.2 (not_lt.2 h))]
    have : (0 : ℝ) < 1e-10 := by norm_num
    linarith
  simp only
  rw [this, Res.bind_throws]

/-! ### The value at a direction and an energy -/

/-- The value of a map at one of its energies. -/
noncomputable def planeValue (m : Map) (lib : Library δ) (d : δ) (k : Nat) : ℝ :=
  if m.interp then ((lib.weights m.nside m.nest d).map (fun w => w.2 * at' m k w.1)).sum
  else at' m k (lib.pixel m.nside m.nest d)

theorem plane_eq {m : Map} (h : Tidy m) {lib : Library δ} (hs : Sound lib) (hc : Convex lib) {k : Nat}
    (hk : k < m.energies.length) (d : δ) : m.plane lib d k = .ok (planeValue m lib d k) := by
  unfold planeValue
  cases hi : m.interp
  · rw [plane_pixel h hs hi hk, if_neg (by simp)]
  · rw [plane_interp h hc hi hk, if_pos rfl]

theorem sum_bounds {l : List (Nat × ℝ)} {y : Nat → ℝ} {lo hi : ℝ} (h : ∀ w ∈ l, 0 ≤ w.2 ∧ lo ≤ y w.1 ∧ y w.1 ≤ hi) :
    lo * (l.map Prod.snd).sum ≤ (l.map fun w => w.2 * y w.1).sum ∧
      (l.map fun w => w.2 * y w.1).sum ≤ hi * (l.map Prod.snd).sum := by
  induction l with
  | nil => simp
  | cons w l ih =>
    obtain ⟨a, b⟩ := ih (fun v hv => h v (List.mem_cons_of_mem _ hv))
    obtain ⟨c, d, e⟩ := h w List.mem_cons_self
    simp only [List.map_cons, List.sum_cons]
    constructor <;> nlinarith

theorem planeValue_bounds {m : Map} (h : Tidy m) {lib : Library δ} (hs : Sound lib) (hc : Convex lib) {k : Nat} {lo hi : ℝ}
    (hb : ∀ i < pixels m.nside, lo ≤ at' m k i ∧ at' m k i ≤ hi) (d : δ) :
    lo ≤ planeValue m lib d k ∧ planeValue m lib d k ≤ hi := by
  unfold planeValue
  split
  · have := sum_bounds (l := lib.weights m.nside m.nest d) (y := at' m k) (lo := lo) (hi := hi) (fun w hw => by
      obtain ⟨a, b⟩ := hc.range _ _ _ h.side w hw
      exact ⟨b, hb _ a⟩)
    rw [hc.one _ _ _ h.side, mul_one, mul_one] at this
    exact this
  · exact hb _ (hs.range _ _ _ h.side)

/-- Without interpolation the value at a direction, at an energy of the map, is that of the pixel of the direction in the
image of the energy; in particular the value at the centre of a pixel is the value of the pixel. -/
theorem C127_grid (m : Map) (h : Tidy m) (lib : Library δ) (hs : Sound lib) (hi : m.interp = false)
    (hn : ∀ k i, 0 ≤ at' m k i) (k : Nat) (hk : k < m.energies.length) (d : δ) :
    m.value lib d m.energies[k] = .ok (at' m k (lib.pixel m.nside m.nest d)) ∧
    ∀ i < pixels m.nside, m.value lib (lib.centre m.nside m.nest i) m.energies[k] = m.pixelValue i k := by
  have key : ∀ d, m.value lib d m.energies[k] = .ok (at' m k (lib.pixel m.nside m.nest d)) := by
    intro d
    have hp : ∀ k < m.energies.length, 0 < (val m.energies k) := fun k hk => h.pos _ (val_mem hk)
    have hkp : 0 < m.energies[k] := h.pos _ (List.getElem_mem hk)
    have hge : ∀ j (hj : j < m.energies.length), m.energies[0] ≤ m.energies[j] := by
      intro j hj
      rcases Nat.eq_zero_or_pos j with rfl | hj0
      · exact le_rfl
      · exact (sorted_lt h.inc hj0 hj).le
    have hle : ∀ j (hj : j < m.energies.length), m.energies[j] ≤ m.energies[m.energies.length - 1] := by
      intro j hj
      rcases Nat.lt_or_ge j (m.energies.length - 1) with hlt | hge'
      · exact (sorted_lt h.inc hlt (by omega)).le
      · have : j = m.energies.length - 1 := by omega
        subst this; exact le_rfl
    rcases Nat.lt_or_ge 1 m.energies.length with h2 | h1
    · have hv := fun {k' : Nat} (hk' : k' + 1 < m.energies.length) (hx : m.energyIndex m.energies[k] = k') =>
        value_eq (m := m) (lib := lib) (d := d) (e := m.energies[k]) (y := fun k => at' m k (lib.pixel m.nside m.nest d))
          h2 hkp.le (Or.inr ⟨hge k hk, hle k hk⟩) (fun k hk => plane_pixel h hs hi hk d) (fun k _ => hn _ _) hk' hx
      rcases Nat.lt_or_ge (k + 1) m.energies.length with hl | hl
      · rw [hv hl (index_eq h.inc hl (Or.inr le_rfl) (Or.inr (sorted_lt h.inc (by omega) hl))), if_pos rfl]
      · have hk2 : m.energies.length - 2 + 1 < m.energies.length := by omega
        have hkk : m.energies.length - 2 + 1 = k := by omega
        have hlt := sorted_lt h.inc (show m.energies.length - 2 < m.energies.length - 2 + 1 by omega) hk2
        have e1 : m.energies[k] = m.energies[m.energies.length - 2 + 1] := by simp only [hkk]
        have hx : m.energyIndex m.energies[k] = m.energies.length - 2 :=
          index_eq h.inc hk2 (Or.inr (e1 ▸ hlt.le)) (Or.inl (by omega))
        have hv' : m.value lib d m.energies[k] = if m.energies[k] = m.energies[m.energies.length - 2] then
            .ok (at' m (m.energies.length - 2) (lib.pixel m.nside m.nest d))
          else Wcs.powerLaw m.energies[k] m.energies[m.energies.length - 2] m.energies[m.energies.length - 2 + 1]
            (at' m (m.energies.length - 2) (lib.pixel m.nside m.nest d))
            (at' m (m.energies.length - 2 + 1) (lib.pixel m.nside m.nest d)) := hv hk2 hx
        rw [hv', if_neg (by rw [e1]; exact hlt.ne'), e1, Wcs.powerLaw_right (h.pos _ (List.getElem_mem _)) hlt (hn _ _) (hn _ _), hkk]
    · have hl1 : m.energies.length = 1 := by
        have := List.length_pos_iff.2 h.grid
        omega
      have hk0 : k = 0 := by omega
      subst hk0
      unfold Map.value
      rw [vget_lt _ _ hk, Res.bind_ok]
      simp only
      rw [show energyUsed m.energies[0] m.energies[0] = m.energies[0] from if_neg (not_lt.2 hkp.le),
        checkEnergy_ok hk (Or.inr ⟨le_rfl, hle 0 hk⟩), Res.bind_ok]
      have hix : m.energyIndex m.energies[0] = 0 := if_neg (by omega)
      rw [hix, plane_pixel h hs hi hk d, Res.bind_ok]
      unfold Map.between
      rw [vget_lt _ _ hk, Res.bind_ok, if_pos rfl]
  refine ⟨key d, fun i hi' => ?_⟩
  rw [key, hs.centre _ _ _ hi']
  obtain ⟨p, hp, h1, h2, h3⟩ := h.get hk
  unfold Map.pixelValue
  rw [checkIndex_ok hk.le, Res.bind_ok, vget_eq_ok.2 hp, Res.bind_ok, vget_val (by rw [h3]; exact hi')]
  unfold at'
  rw [hp]
  rfl

/-- Between two energies the value is that of the power law through the values of the two images, if these are positive;
it is never outside the range of the pixels of the two images. -/
theorem C127_between (m : Map) (h : Tidy m) (lib : Library δ) (hs : Sound lib) (hc : Convex lib) (hn : ∀ k i, 0 ≤ at' m k i)
    (k : Nat) (hk : k + 1 < m.energies.length) (e : ℝ) (h1 : m.energies[k] < e) (h2 : e < m.energies[k + 1]) (d : δ) :
    ∃ y1 y2 v, m.plane lib d k = .ok y1 ∧ m.plane lib d (k + 1) = .ok y2 ∧ m.value lib d e = .ok v ∧
      (0 < y1 → 0 < y2 → v = power e m.energies[k] m.energies[k + 1] y1 y2) ∧
      ∀ hi, (∀ i < pixels m.nside, at' m k i ≤ hi ∧ at' m (k + 1) i ≤ hi) → 0 ≤ v ∧ v ≤ hi := by
  have hkp : 0 < m.energies[k] := h.pos _ (List.getElem_mem _)
  have hlt := sorted_lt h.inc (show k < k + 1 by omega) hk
  have hge : m.energies[0] ≤ m.energies[k] := by
    rcases Nat.eq_zero_or_pos k with hk0 | hj0
    · simp only [hk0]; exact le_rfl
    · exact (sorted_lt h.inc hj0 (by omega)).le
  have hle : m.energies[k + 1] ≤ m.energies[m.energies.length - 1] := by
    rcases Nat.lt_or_ge (k + 1) (m.energies.length - 1) with hlt | hge'
    · exact (sorted_lt h.inc hlt (by omega)).le
    · have : k + 1 = m.energies.length - 1 := by omega
      simp only [this]; exact le_rfl
  have hy0 : ∀ k < m.energies.length, 0 ≤ planeValue m lib d k := by
    intro k _
    obtain ⟨p, q⟩ := planeValue_bounds h hs hc (k := k) (lo := 0)
      (hi := ∑ i ∈ Finset.range (pixels m.nside), at' m k i) (fun i hi => ⟨hn k i,
        Finset.single_le_sum (f := fun i => at' m k i) (fun j _ => hn k j) (Finset.mem_range.2 hi)⟩) d
    exact p
  have hv := value_eq (m := m) (lib := lib) (d := d) (e := e) (y := planeValue m lib d) (by omega) (by linarith)
    (Or.inr ⟨by linarith, by linarith⟩) (fun k hk => plane_eq h hs hc hk d) hy0 hk
    (index_eq h.inc hk (Or.inr h1.le) (Or.inr h2))
  rw [if_neg h1.ne'] at hv
  obtain ⟨v, hv1, hv2, hv3⟩ := Wcs.powerLaw_between hkp hlt (hy0 k (by omega)) (hy0 (k + 1) hk) h1.le h2.le
  refine ⟨_, _, v, plane_eq h hs hc (by omega) d, plane_eq h hs hc hk d, by rw [hv, hv1], ?_, ?_⟩
  · intro p1 p2
    rw [Wcs.powerLaw_cases hkp hlt p1.le p2.le, if_neg (fun c => p1.ne' c.1),
      if_neg (by rintro (c | c); exacts [p1.ne' c, p2.ne' c])] at hv1
    exact (Res.ok.inj hv1).symm
  · intro hi hb
    have b1 := planeValue_bounds h hs hc (k := k) (lo := 0) (hi := hi) (fun i hi' => ⟨hn k i, (hb i hi').1⟩) d
    have b2 := planeValue_bounds h hs hc (k := k + 1) (lo := 0) (hi := hi) (fun i hi' => ⟨hn _ i, (hb i hi').2⟩) d
    exact ⟨le_trans (le_min b1.1 b2.1) hv2, hv3.trans (max_le b1.2 b2.2)⟩

/-- At every positive energy a map of at least two energies that need not be kept to their range has a value, and it is
not negative. -/
theorem C127_nonneg (m : Map) (h : Tidy m) (lib : Library δ) (hs : Sound lib) (hc : Convex lib) (hn : ∀ k i, 0 ≤ at' m k i)
    (h2 : 2 ≤ m.energies.length) (hf : m.enforce = false) (e : ℝ) (he : 0 < e) (d : δ) : ∃ v, m.value lib d e = .ok v ∧ 0 ≤ v := by
  have hy0 : ∀ k < m.energies.length, 0 ≤ planeValue m lib d k := by
    intro k _
    obtain ⟨p, q⟩ := planeValue_bounds h hs hc (k := k) (lo := 0)
      (hi := ∑ i ∈ Finset.range (pixels m.nside), at' m k i) (fun i hi => ⟨hn k i,
        Finset.single_le_sum (f := fun i => at' m k i) (fun j _ => hn k j) (Finset.mem_range.2 hi)⟩) d
    exact p
  have hk := index_lt h2 e
  rw [value_eq h2 he.le (Or.inl hf) (fun k hk => plane_eq h hs hc hk d) hy0 hk rfl]
  split
  · exact ⟨_, rfl, hy0 _ (by omega)⟩
  · exact Wcs.powerLaw_nonneg he (h.pos _ (List.getElem_mem _)) (sorted_lt h.inc (by omega) hk) (hy0 _ (by omega)) (hy0 _ hk)

/-- A map kept to the range of its energies refuses other energies. -/
theorem C127_enforced (m : Map) (h : Tidy m) (lib : Library δ) (hf : m.enforce = true) (e : ℝ) (he : 0 ≤ e)
    (hr : e < nth m.energies 0 ∨ nth m.energies (m.energies.length - 1) < e) (d : δ) : m.value lib d e = .throws := by
  have h0 := List.length_pos_iff.2 h.grid
  rw [nth_val, nth_val, val_lt h0, val_lt (by omega)] at hr
  unfold Map.value
  rw [vget_lt _ _ h0, Res.bind_ok]
  simp only
  rw [show energyUsed m.energies[0] e = e from if_neg (not_lt.2 he)]
  have : m.checkEnergy e = .throws := by
    unfold Map.checkEnergy
    rw [List.head?_eq_getElem?, List.getElem?_eq_getElem h0, List.getLast?_eq_getElem?, List.getElem?_eq_getElem (by omega)]
    simp only
    rw [if_pos ⟨hf, hr⟩]
  rw [this, Res.bind_throws]

/-- A map of one energy should have a value at other energies, or refuse them.  If it is not kept to the range, the
second image is read, which does not exist. -/
theorem C127_single_violates (m : Map) (h : Tidy m) (lib : Library δ) (h1 : m.energies.length = 1) (hf : m.enforce = false)
    (hs : Sound lib) (hc : Convex lib) (e : ℝ) (he : 0 ≤ e) (hne : e ≠ nth m.energies 0) (d : δ) : m.value lib d e = .ub := by
  have h0 : 0 < m.energies.length := by omega
  rw [nth_val, val_lt h0] at hne
  unfold Map.value
  rw [vget_lt _ _ h0, Res.bind_ok]
  simp only
  rw [show energyUsed m.energies[0] e = e from if_neg (not_lt.2 he), checkEnergy_ok h0 (Or.inl hf), Res.bind_ok]
  have hix : m.energyIndex e = 0 := if_neg (by omega)
  rw [hix, plane_eq h hs hc h0 d, Res.bind_ok]
  unfold Map.between
  rw [vget_lt _ _ h0, Res.bind_ok, if_neg hne]
  have : m.plane lib d (0 + 1) = .ub := by
    unfold Map.plane
    rw [checkIndex_ok (by omega), Res.bind_ok, vget_ge _ _ (by rw [h.count, h1]), Res.bind_ub]
  rw [this, Res.bind_ub]

/-! ### Coarser maps -/

theorem mapM_mem {α β : Type} {f : α → Res β} : ∀ {l : List α} {r : List β}, l.mapM f = .ok r →
    r.length = l.length ∧ ∀ b ∈ r, ∃ a ∈ l, f a = .ok b
  | [], r, h => by simp at h; subst h; simp
  | a :: l, r, h => by
    rw [List.mapM_cons] at h
    obtain ⟨b, hb, h⟩ := Res.bind_eq_ok.1 h
    obtain ⟨bs, hbs, h⟩ := Res.bind_eq_ok.1 h
    simp only [Res.pure_eq, Res.ok.injEq] at h
    subst h
    obtain ⟨i1, i2⟩ := mapM_mem hbs
    refine ⟨by simp [i1], ?_⟩
    intro c hc
    rcases List.mem_cons.1 hc with rfl | hc
    · exact ⟨a, List.mem_cons_self, hb⟩
    · obtain ⟨x, hx, hx'⟩ := i2 c hc
      exact ⟨x, List.mem_cons_of_mem _ hx, hx'⟩

/-- A map should be made coarser by the factor.  It never is: if the call succeeds, the images have two to the power of the
side that is asked for as their side, and the map still has its old side and number of pixels. -/
theorem C127_rebin_violates (m : Map) (h : Tidy m) (lib : Library δ) (factor : Nat) (hf : 2 ≤ factor) (h2 : 2 ≤ m.nside)
    (m' : Map) (hr : rebin lib m factor = .ok m') :
    m'.nside = m.nside ∧ m'.planes ≠ [] ∧ ∀ p ∈ m'.planes,
      p.nside = 2 ^ (max 1 (m.nside / factor)) ∧ p.nside ≠ max 1 (m.nside / factor) ∧ p.nside < m.nside ∧
      p.vals.length = pixels p.nside := by
  have hs : newSide m factor = some (max 1 (m.nside / factor)) := by
    unfold newSide
    rw [if_neg (by omega)]
    by_cases c : m.nside / factor = 0
    · rw [if_pos c, if_neg (by omega), c]; rfl
    · rw [if_neg c, Nat.max_eq_right (Nat.pos_of_ne_zero c)]
  unfold rebin at hr
  rw [hs] at hr
  simp only at hr
  obtain ⟨ps, hps, hr⟩ := Res.bind_eq_ok.1 hr
  obtain ⟨hl, hmem⟩ := mapM_mem hps
  have hd : m.planes.drop m.energies.length = [] := List.drop_eq_nil_of_le (by rw [h.count])
  simp only [Res.ok.injEq] at hr
  subst hr
  simp only [hd, List.append_nil]
  refine ⟨trivial, ?_, ?_⟩
  · intro hnil
    rw [hnil] at hl
    have := List.length_pos_iff.2 h.grid
    simp at hl
    omega
  · intro p hp
    obtain ⟨k, hk, hq⟩ := hmem p hp
    obtain ⟨q, hq1, hq2⟩ := Res.bind_eq_ok.1 hq
    unfold rebinPlane at hq2
    split at hq2
    · cases hq2
    · unfold degrade at hq2
      split at hq2
      · cases hq2
      · rename_i c1 c2
        obtain ⟨vs, hv1, hv2⟩ := Res.bind_eq_ok.1 hq2
        obtain ⟨hvl, _⟩ := mapM_mem hv1
        simp only [Res.ok.injEq] at hv2
        subst hv2
        have hqm : q ∈ m.planes := List.mem_of_getElem? (vget_eq_ok.1 hq1)
        have hqs := (h.whole q hqm).1
        refine ⟨rfl, ?_, ?_, ?_⟩
        · have := Nat.lt_two_pow_self (n := max 1 (m.nside / factor))
          simp only
          omega
        · simp only [not_or] at c2
          simp only
          omega
        · simp only
          rw [hvl]
          simp [pixels]

/-- Afterwards pixels of the map cannot be read: the last pixel of the map is beyond the end of each image. -/
theorem C127_rebin_pixel_violates (m : Map) (h : Tidy m) (lib : Library δ) (factor : Nat) (hf : 2 ≤ factor) (h2 : 2 ≤ m.nside)
    (m' : Map) (hr : rebin lib m factor = .ok m') (k : Nat) (hk : k < m.energies.length) :
    m'.pixelValue (pixels m'.nside - 1) k = .ub := by
  obtain ⟨a, b, c⟩ := C127_rebin_violates m h lib factor hf h2 m' hr
  have hE : m'.energies = m.energies := by
    unfold rebin at hr
    split at hr
    · simp only [Res.ok.injEq] at hr; subst hr; rfl
    · obtain ⟨ps, hps, hr⟩ := Res.bind_eq_ok.1 hr
      simp only [Res.ok.injEq] at hr; subst hr; rfl
  unfold Map.pixelValue
  rw [checkIndex_ok (by rw [hE]; omega), Res.bind_ok]
  cases hp : m'.planes[k]? with
  | none => rw [vget, hp]; rfl
  | some p =>
    rw [vget_eq_ok.2 hp, Res.bind_ok]
    obtain ⟨_, _, c1, c2⟩ := c p (List.mem_of_getElem? hp)
    apply vget_ge
    rw [c2, a]
    unfold pixels
    have : p.nside * p.nside < m.nside * m.nside := Nat.mul_lt_mul'' c1 c1
    have e1 : 12 * p.nside * p.nside = 12 * (p.nside * p.nside) := by ring
    have e2 : 12 * m.nside * m.nside = 12 * (m.nside * m.nside) := by ring
    omega

/-- A factor of one changes nothing. -/
theorem C127_rebin_one (m : Map) (lib : Library δ) : rebin lib m 1 = .ok m := rfl

/-! ### The hypotheses can be met -/

/-- A library with numbers for directions. -/
noncomputable def demo : Library Nat where
  pixel n _ d := d % (12 * n * n)
  centre _ _ i := i
  weights n _ d := [(d % (12 * n * n), 1 / 2), ((d + 1) % (12 * n * n), 1 / 2)]
  inner f c _ i := (List.range ((f / c) * (f / c))).map (fun j => i * ((f / c) * (f / c)) + j)
  maxOrder := 29

example : Sound demo := by
  refine ⟨fun n s d hn => ?_, fun n s i hi => ?_⟩
  · exact Nat.mod_lt _ (by positivity)
  · exact Nat.mod_eq_of_lt hi

example : Convex demo := by
  refine ⟨fun n s d hn w hw => ?_, fun n s d hn => ?_⟩
  · simp only [demo, List.mem_cons, List.not_mem_nil, or_false] at hw
    rcases hw with rfl | rfl
    · exact ⟨Nat.mod_lt _ (by positivity), by norm_num⟩
    · exact ⟨Nat.mod_lt _ (by positivity), by norm_num⟩
  · simp [demo]; norm_num

/-- A map of side four with two energies. -/
noncomputable def demoMap : Map := ⟨4, true, [100, 1000], [⟨4, true, List.replicate 192 3⟩, ⟨4, true, List.replicate 192 5⟩], [], 0, false, false⟩

theorem demoMap_tidy : Tidy demoMap where
  side := by simp [demoMap]
  grid := by simp [demoMap]
  pos := by simp [demoMap]
  inc := by simp [demoMap]; norm_num
  count := by simp [demoMap]
  whole := by
    intro p hp
    simp only [demoMap, List.mem_cons, List.not_mem_nil, or_false] at hp
    rcases hp with rfl | rfl <;> exact ⟨rfl, rfl, List.length_replicate⟩

/-- A coarser map of side one of it is asked for and one of side two made. -/
example : ∃ m', rebin demo demoMap 4 = .ok m' := by
  unfold rebin
  have hs : newSide demoMap 4 = some 1 := rfl
  rw [hs]
  have hone : ∀ x : ℝ, rebinPlane demo demoMap 1 ⟨4, true, List.replicate 192 x⟩ =
      .ok ⟨2, true, (List.range 48).map (fun _ => ((List.replicate 4 x).sum / 4))⟩ := by
    intro x
    unfold rebinPlane
    rw [if_neg (by simp [demo])]
    unfold degrade
    rw [if_neg (by simp)]
    rw [mapM_ok _ (fun _ => ((List.replicate 4 x).sum / 4)), Res.bind_ok]
    · rfl
    · intro i hi
      rw [List.mem_range] at hi
      have : (demo.inner 4 (2 ^ 1) demoMap.nest i).mapM (vget (List.replicate 192 x)) = .ok (List.replicate 4 x) := by
        rw [mapM_ok _ (fun _ => x)]
        · simp [demo, List.range_succ]
        · intro j hj
          simp only [demo, List.mem_map, List.mem_range] at hj
          obtain ⟨q, hq, rfl⟩ := hj
          rw [vget_lt _ _ (by rw [List.length_replicate]; norm_num at hq hi ⊢; omega), List.getElem_replicate]
      rw [this, Res.bind_ok]
      simp
  simp only [demoMap] at hone ⊢
  simp only [List.length_cons, List.length_nil, List.range_succ, List.range_zero, List.nil_append, List.mapM_append,
    List.mapM_cons, List.mapM_nil, Res.bind_ok, Res.pure_eq, vget, List.getElem?_cons_zero, List.getElem?_cons_succ, List.cons_append]
  simp only [Nat.zero_add, List.getElem?_cons_succ, List.getElem?_cons_zero, Res.bind_ok, hone]
  exact ⟨_, rfl⟩

end Verif.HpxMap
