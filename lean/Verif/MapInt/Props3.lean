import Verif.MapInt.Props2
/-
C69: from counts to intensities and back.
-/
set_option linter.unusedSectionVars false
set_option linter.unusedSimpArgs false
set_option linter.unusedVariables false
namespace Verif.MapInt
open Verif.MapInt.Spec
open scoped BigOperators

theorem binWidths_length (l : List ℝ) : (binWidths l).length = l.length - 1 := by
  induction l with
  | nil => rfl
  | cons a l ih =>
    cases l with
    | nil => rfl
    | cons b l => simp only [binWidths, List.length_cons] at ih ⊢; omega

theorem binCenters_length (l : List ℝ) : (binCenters l).length = l.length - 1 := by
  induction l with
  | nil => rfl
  | cons a l ih =>
    cases l with
    | nil => rfl
    | cons b l => simp only [binCenters, List.length_cons] at ih ⊢; omega

theorem binWidths_el (l : List ℝ) (k : Nat) (h : k + 1 < l.length) : el (binWidths l) k = el l (k + 1) - el l k := by
  induction l generalizing k with
  | nil => simp at h
  | cons a l ih =>
    cases l with
    | nil => simp at h
    | cons b l =>
      cases k with
      | zero => simp [binWidths, el]
      | succ k =>
        have := ih k (by simpa using h)
        simp only [binWidths, el, List.getElem?_cons_succ] at this ⊢
        exact this

theorem binWidths_ne (l : List ℝ) (h : l.Pairwise (· < ·)) : ∀ w ∈ binWidths l, w ≠ 0 := by
  induction l with
  | nil => simp [binWidths]
  | cons a l ih =>
    cases l with
    | nil => simp [binWidths]
    | cons b l =>
      intro w hw
      simp only [binWidths, List.mem_cons] at hw
      rcases hw with rfl | hw
      · have := (List.pairwise_cons.1 h).1 b (by simp)
        linarith
      · exact ih (List.pairwise_cons.1 h).2 w hw

/-- A counts map as it comes from the program: increasing edges with at least one bin, a count for each
pixel and bin, a solid angle for each pixel. -/
structure Counts.Tidy (c : Counts) : Prop where
  bins : 2 ≤ c.edges.length
  sorted : c.edges.Pairwise (· < ·)
  data : c.data.length = (c.edges.length - 1) * c.n2 * c.n1
  angles : c.angles.length = c.n2 * c.n1

theorem fold_planes (c : Counts) : Planes (foldVector c.n1 c.n2 (c.edges.length - 1) c.data) (c.edges.length - 1) c.n1 c.n2
    (fun k j i => el c.data ((k * c.n2 + j) * c.n1 + i)) := foldVector_spec _ _ _ _

theorem angles_ne {c : Counts} (h : c.Tidy) (hne : ∀ a ∈ c.angles, a ≠ 0) :
    ∀ j < c.n2, ∀ i < c.n1, pix (foldPlane c.n1 c.n2 c.angles).1 j i ≠ 0 := by
  intro j hj i hi
  obtain ⟨-, -, g3⟩ := foldPlane_spec c.n1 c.n2 c.angles
  rw [g3 j hj i hi]
  have hlt : j * c.n1 + i < c.angles.length := by rw [h.angles]; exact Vec.idx_lt hi hj
  unfold el
  rw [List.getElem?_eq_getElem hlt]
  exact hne _ (List.getElem_mem hlt)

/-- The solid angles of a map made from a counts map are those of its pixels, row after row. -/
theorem solidAngles_counts (Ω : Omega) (c : Counts) (h2 : 0 < c.n2) (b : Bool) (es : List ℝ) (im : List Plane) (vs : List ℝ) (t : ℝ) :
    (⟨b, c.n1, c.n2, c.crpix, c.cdelt, es, im, (foldPlane c.n1 c.n2 c.angles).1, vs, t⟩ : WMap).solidAngles Ω =
      (foldPlane c.n1 c.n2 c.angles).1 := by
  unfold WMap.solidAngles
  rw [if_neg]
  simp only [List.isEmpty_iff]
  intro h
  have := (foldPlane_spec c.n1 c.n2 c.angles).1.1
  rw [h] at this
  simp at this
  omega

/-- A square counts map becomes a map of intensities: each pixel times the width of the bin and its
solid angle is its count; and the counts map made from this map is the one it was made from. -/
theorem C69_roundtrip_partial (Ω : Omega) (c : Counts) (periodic : Bool) (h : c.Tidy) (hsq : c.n1 = c.n2) (h0 : 0 < c.n2)
    (hne : ∀ a ∈ c.angles, a ≠ 0) :
    ∃ m, ofCounts Ω c true periodic = .ok m ∧
      (∀ k < c.edges.length - 1, ∀ j < c.n2, ∀ i < c.n1,
        pix (planeAt m k) j i * ((el c.edges (k + 1) - el c.edges k) * el c.angles (j * c.n1 + i)) =
          el c.data ((k * c.n2 + j) * c.n1 + i)) ∧
      countsOf Ω m c = .ok c := by
  have hb := h.bins
  obtain ⟨g1, g2, g3⟩ := foldPlane_spec c.n1 c.n2 c.angles
  have hane := angles_ne h hne
  obtain ⟨im, i1, i2⟩ := toDifferential_eq (fold_planes c) (binWidths_length _) (binWidths_ne _ h.sorted) g1 hane
  have hwk : ∀ k < c.edges.length - 1, el (binWidths c.edges) k ≠ 0 := by
    intro k hk
    have hk' : k < (binWidths c.edges).length := by rw [binWidths_length]; exact hk
    unfold el
    rw [List.getElem?_eq_getElem hk']
    exact binWidths_ne _ h.sorted _ (List.getElem_mem hk')
  -- the map
  have hsa := solidAngles_counts Ω c h0 periodic (binCenters c.edges) im [] 0
  have hF : ∀ k < (binCenters c.edges).length, ∀ p, im[k]? = some p →
      planeIntegral (foldPlane c.n1 c.n2 c.angles).1 p c.n1 c.n2 =
        .ok (integral (pix (foldPlane c.n1 c.n2 c.angles).1) ((im[k]?).getD []) c.n1 c.n2) := by
    intro k hk p hp
    obtain ⟨p', a, b, -⟩ := i2.2 k (by rw [binCenters_length] at hk; exact hk)
    rw [hp] at a
    cases a
    rw [hp]
    refine planeIntegral_eq ?_ b
    have := g1
    rw [hsq] at this ⊢
    exact this
  have hl := integrals_loop (by rw [i2.1, binCenters_length]) _ hF
  have ht : ∃ t, energyIntegral (binCenters c.edges) ((List.range (binCenters c.edges).length).map fun k =>
      integral (pix (foldPlane c.n1 c.n2 c.angles).1) ((im[k]?).getD []) c.n1 c.n2) = .ok t := by
    by_cases h1 : (binCenters c.edges).length = 1
    · obtain ⟨e0, he0⟩ := List.length_eq_one_iff.1 h1
      rw [he0]
      simp only [energyIntegral]
      exact ⟨_, vget_el (by simp)⟩
    · exact ⟨_, energyIntegral_eq (by rw [binCenters_length] at h1 ⊢; omega) (by simp)⟩
  obtain ⟨t, ht⟩ := ht
  have hm : ofCounts Ω c true periodic = .ok ⟨periodic, c.n1, c.n2, c.crpix, c.cdelt, binCenters c.edges, im,
      (foldPlane c.n1 c.n2 c.angles).1, (List.range (binCenters c.edges).length).map fun k =>
        integral (pix (foldPlane c.n1 c.n2 c.angles).1) ((im[k]?).getD []) c.n1 c.n2, t⟩ := by
    unfold ofCounts
    simp only [convert, if_true]
    rw [i1, Res.bind_ok]
    unfold WMap.computeIntegrals
    rw [hsa]
    simp only []
    rw [hl, Res.bind_ok, ht, Res.bind_ok]
  have hprod : ∀ k < c.edges.length - 1, ∀ j < c.n2, ∀ i < c.n1,
      el c.data ((k * c.n2 + j) * c.n1 + i) * (1 / el (binWidths c.edges) k / pix (foldPlane c.n1 c.n2 c.angles).1 j i) *
        el (binWidths c.edges) k * pix (foldPlane c.n1 c.n2 c.angles).1 j i = el c.data ((k * c.n2 + j) * c.n1 + i) := by
    intro k hk j hj i hi
    have a := hwk k hk
    have b := hane j hj i hi
    field_simp
  refine ⟨_, hm, fun k hk j hj i hi => ?_, ?_⟩
  · obtain ⟨p, a, b, d⟩ := i2.2 k hk
    rw [planeAt_eq (m := ⟨periodic, c.n1, c.n2, c.crpix, c.cdelt, binCenters c.edges, im, _, _, t⟩) a, d j hj i hi,
      ← binWidths_el c.edges k (by omega), ← g3 j hj i hi, ← mul_assoc]
    exact hprod k hk j hj i hi
  · obtain ⟨o, o1, o2, o3⟩ := toIntegral_eq (out := c.data) i2 (binWidths_length _) g1 (el c.data) h.data hprod
    unfold countsOf
    rw [solidAngles_counts Ω c h0, o1, Res.bind_ok]
    have : o = c.data := by
      apply List.ext_getElem o2
      intro q a b
      have := o3 q b
      unfold el at this
      rw [List.getElem?_eq_getElem a, List.getElem?_eq_getElem b] at this
      exact this
    rw [this]

/-- Any other counts map: the construction reads beyond the end. This is what happens to the maps of the
tool that computes the effective background. -/
theorem C69_nonsquare_violates (Ω : Omega) (c : Counts) (periodic : Bool) (h : c.Tidy) (h1 : 0 < c.n1) (h2 : 0 < c.n2)
    (hne : ∀ a ∈ c.angles, a ≠ 0) (hsq : c.n1 ≠ c.n2) : ofCounts Ω c true periodic = .ub := by
  have hb := h.bins
  obtain ⟨g1, g2, g3⟩ := foldPlane_spec c.n1 c.n2 c.angles
  obtain ⟨im, i1, i2⟩ := toDifferential_eq (fold_planes c) (binWidths_length _) (binWidths_ne _ h.sorted) g1 (angles_ne h hne)
  obtain ⟨p, a, b, -⟩ := i2.2 0 (by omega)
  unfold ofCounts
  simp only [convert, if_true]
  rw [i1, Res.bind_ok]
  unfold WMap.computeIntegrals
  rw [solidAngles_counts Ω c h2]
  simp only []
  rw [loop_ub (k := 0) (by rw [binCenters_length]; omega) (fun i s a b => by omega) (fun s => by
    simp only [Nat.zero_add]
    rw [vget_eq_ok.2 a, Res.bind_ok, planeIntegral_ub g1 b h1 h2 hsq]
    rfl)]
  rfl

/-- A pixel outside of the projection has no solid angle: the division gives no number, and there is no
map of intensities. -/
theorem C69_outside_violates (Ω : Omega) (c : Counts) (periodic : Bool) (h : c.Tidy) (j i : Nat) (hj : j < c.n2) (hi : i < c.n1)
    (hz : el c.angles (j * c.n1 + i) = 0) (m : WMap) : ofCounts Ω c true periodic ≠ .ok m := by
  have hb := h.bins
  intro hc
  obtain ⟨g1, g2, g3⟩ := foldPlane_spec c.n1 c.n2 c.angles
  unfold ofCounts at hc
  simp only [convert, if_true] at hc
  obtain ⟨im, him, -⟩ := Res.bind_eq_ok.1 hc
  unfold toDifferential at him
  obtain ⟨n, hn⟩ : ∃ n, (binWidths c.edges).length = n + 1 := ⟨(binWidths c.edges).length - 1, by rw [binWidths_length]; omega⟩
  rw [hn, loop] at him
  obtain ⟨im1, h1, -⟩ := Res.bind_eq_ok.1 him
  obtain ⟨p, hp, h1⟩ := Res.bind_eq_ok.1 h1
  obtain ⟨w, -, h1⟩ := Res.bind_eq_ok.1 h1
  obtain ⟨p', hp', -⟩ := Res.bind_eq_ok.1 h1
  obtain ⟨q, q1, q2, -⟩ := (fold_planes c).2 0 (by omega)
  rw [vget_eq_ok.2 q1] at hp
  cases hp
  unfold diffPlane at hp'
  obtain ⟨f, -, hp'⟩ := Res.bind_eq_ok.1 hp'
  rw [g1.1] at hp'
  have keepRow : ∀ (f : ℝ) (sa row r : List ℝ), diffRow f sa row = .ok r → r.length = row.length := by
    intro f sa row r hr
    unfold diffRow at hr
    by_contra hcon
    have hgen : ∀ n lo (s s' : List ℝ), loop (fun i r => do
        let v ← vget r i
        let w ← vget sa i
        let q ← divide f w
        vset r i (v * q)) lo n s = .ok s' → s'.length = s.length := by
      intro n
      induction n with
      | zero => intro lo s s' hs; cases hs; rfl
      | succ n ih =>
        intro lo s s' hs
        rw [loop] at hs
        obtain ⟨t, ht, hs⟩ := Res.bind_eq_ok.1 hs
        obtain ⟨_, -, ht⟩ := Res.bind_eq_ok.1 ht
        obtain ⟨_, -, ht⟩ := Res.bind_eq_ok.1 ht
        obtain ⟨_, -, ht⟩ := Res.bind_eq_ok.1 ht
        rw [ih _ _ _ hs, (vset_ok_iff ht).1, List.length_set]
    exact hcon (hgen _ _ _ _ hr)
  obtain ⟨a, b, ha, hab⟩ := loop_ok_at (fun p => Shape p c.n1 c.n2) hp' q2 (by
    intro i a b ha hab
    obtain ⟨w, -, hab⟩ := Res.bind_eq_ok.1 hab
    obtain ⟨row, hrow, hab⟩ := Res.bind_eq_ok.1 hab
    obtain ⟨row', hrow', hab⟩ := Res.bind_eq_ok.1 hab
    rw [(vset_ok_iff hab).1]
    refine ha.set ?_
    rw [keepRow _ _ _ _ hrow']
    exact ha.2 _ (List.mem_of_getElem? (vget_eq_ok.1 hrow))) (i := j) (Nat.zero_le _) (by omega)
  obtain ⟨sr, hsr, hab⟩ := Res.bind_eq_ok.1 hab
  obtain ⟨row, hrow, hab⟩ := Res.bind_eq_ok.1 hab
  obtain ⟨row', hrow', -⟩ := Res.bind_eq_ok.1 hab
  obtain ⟨sr', -, s1, s2, s3⟩ := g1.row hj
  rw [hsr] at s1
  cases s1
  have hlen : row.length = c.n1 := ha.2 _ (List.mem_of_getElem? (vget_eq_ok.1 hrow))
  unfold diffRow at hrow'
  obtain ⟨x, y, -, hxy⟩ := loop_ok_at (fun _ => True) hrow' trivial (fun _ _ _ _ _ => trivial) (i := i) (Nat.zero_le _) (by omega)
  obtain ⟨_, -, hxy⟩ := Res.bind_eq_ok.1 hxy
  obtain ⟨s, hs, hxy⟩ := Res.bind_eq_ok.1 hxy
  obtain ⟨_, hd, -⟩ := Res.bind_eq_ok.1 hxy
  rw [vget_el (by omega)] at hs
  cases hs
  rw [← s3, g3 j hj i hi, hz] at hd
  unfold divide at hd
  rw [if_pos rfl] at hd
  cases hd

/-- Counts made from a map whose solid angles are computed when they are asked for, as those of a map read
from a file: with more columns than rows rows beyond the last are read; with fewer, the counts of the last
rows are left as they were (here two rows of one pixel). -/
theorem C69_file_violates (Ω : Omega) (m : WMap) (c : Counts) (hs : m.solid = []) (h : m.Tidy) (hb : 2 ≤ c.edges.length)
    (he : c.edges.length ≤ m.energies.length + 1) (hsq : m.n2 < m.n1) (c' : Counts) :
    countsOf Ω m c ≠ .ok c' ∧
    ∀ a b x y : ℝ, countsOf (fun _ _ _ _ => 1) ⟨false, 1, 2, (0, 0), (1, 1), [100], [[[a], [b]]], [], [], 0⟩
        ⟨1, 2, (0, 0), (1, 1), [100, 101], [x, y], [1, 1]⟩ =
      .ok ⟨1, 2, (0, 0), (1, 1), [100, 101], [a, y], [1, 1]⟩ := by
  constructor
  · intro hc
    obtain ⟨s1, -⟩ := solidAngles_lazy Ω m hs
    unfold countsOf toIntegral at hc
    obtain ⟨d, hd, -⟩ := Res.bind_eq_ok.1 hc
    obtain ⟨st, hst, -⟩ := Res.bind_eq_ok.1 hd
    obtain ⟨a, b, -, hab⟩ := loop_ok_at (fun _ => True) hst trivial (fun _ _ _ _ _ => trivial) (i := 0) le_rfl
      (by rw [binWidths_length]; omega)
    obtain ⟨p, hp, hab⟩ := Res.bind_eq_ok.1 hab
    obtain ⟨f, -, hab⟩ := Res.bind_eq_ok.1 hab
    rw [s1.1] at hab
    obtain ⟨a, b, -, hab⟩ := loop_ok_at (fun _ => True) hab trivial (fun _ _ _ _ _ => trivial) (i := m.n2) (Nat.zero_le _) (by omega)
    obtain ⟨w, -, hab⟩ := Res.bind_eq_ok.1 hab
    obtain ⟨row, hrow, -⟩ := Res.bind_eq_ok.1 hab
    rw [vget_ge _ _ (by rw [(h.shape p (List.mem_of_getElem? (vget_eq_ok.1 hp))).1])] at hrow
    cases hrow
  · intro a b x y
    have e : (101 : ℝ) - 100 = 1 := by norm_num
    simp [countsOf, toIntegral, binWidths, WMap.solidAngles, loop, vget, vset, e]

/-- The counts of a map in Healpix pixels. -/
theorem C69_healpix (image : List (List ℝ)) (widths : List ℝ) (npix : Nat) (sa : ℝ) (hs : sa ≠ 0) (hw : ∀ w ∈ widths, w ≠ 0)
    (hl : image.length = widths.length) (hp : ∀ p ∈ image, p.length = npix) :
    ∃ im, hpxDifferential image widths npix sa = .ok im ∧ ∀ k < image.length, ∃ p p', image[k]? = some p ∧ im[k]? = some p' ∧
      ∀ j < npix, el p' j * (el widths k * sa) = el p j := by
  unfold hpxDifferential
  obtain ⟨im, h1, h2, h3⟩ := loop_inv (body := fun k im => do
      let p ← vget im k
      let w ← vget widths k
      let f ← divide 1 (sa * w)
      let p' ← loop (fun j p => do
        let v ← vget p j
        vset p j (v * f)) 0 npix p
      vset im k p') (lo := 0) (n := widths.length) (s := image)
    (fun K im => im.length = image.length ∧ ∀ k < image.length, ∃ p p', image[k]? = some p ∧ im[k]? = some p' ∧ p'.length = npix ∧
      if k < K then ∀ j < npix, el p' j * (el widths k * sa) = el p j else p' = p)
    ⟨rfl, fun k hk => ⟨_, _, List.getElem?_eq_getElem hk, List.getElem?_eq_getElem hk, hp _ (List.getElem_mem hk), by
      rw [if_neg (by omega)]⟩⟩ (by
      rintro K im - hK ⟨g1, g2⟩
      rw [Nat.zero_add] at hK
      obtain ⟨p, p', a1, a2, a3, a4⟩ := g2 K (by omega)
      rw [if_neg (by omega)] at a4
      subst a4
      have hwk : el widths K ≠ 0 := by
        unfold el
        rw [List.getElem?_eq_getElem hK]
        exact hw _ (List.getElem_mem hK)
      obtain ⟨q, q1, q2, q3⟩ := loop_inv (body := fun j p => do
          let v ← vget p j
          vset p j (v * (1 / (sa * el widths K)))) (lo := 0) (n := npix) (s := p')
        (fun J q => q.length = npix ∧ ∀ j, el q j = if j < J then el p' j * (1 / (sa * el widths K)) else el p' j)
        ⟨a3, fun j => by rw [if_neg (by omega)]⟩ (by
          rintro J q - hJ ⟨b1, b2⟩
          rw [Nat.zero_add] at hJ
          refine ⟨q.set J (el p' J * (1 / (sa * el widths K))), ?_, by simp [b1], fun j => ?_⟩
          · rw [vget_el (by omega), Res.bind_ok, b2 J, if_neg (by omega), vset_lt _ _ _ (by omega)]
          · rw [el_set (by omega)]
            by_cases hc : j = J
            · subst hc; rw [if_pos rfl, if_pos (by omega)]
            · rw [if_neg hc, b2]
              by_cases hc2 : j < J
              · rw [if_pos hc2, if_pos (by omega)]
              · rw [if_neg hc2, if_neg (by omega)])
      refine ⟨im.set K q, ?_, by simp [g1], fun k hk => ?_⟩
      · rw [vget_eq_ok.2 a2, Res.bind_ok, vget_el hK, Res.bind_ok, divide_eq (mul_ne_zero hs hwk), Res.bind_ok, q1, Res.bind_ok,
          vset_lt _ _ _ (by omega)]
      · by_cases hc : k = K
        · subst hc
          refine ⟨p', q, a1, List.getElem?_set_self (by omega), q2, ?_⟩
          rw [if_pos (by omega)]
          intro j hj
          rw [q3, if_pos (by omega)]
          field_simp
        · obtain ⟨r, r', c1, c2, c3, c4⟩ := g2 k hk
          refine ⟨r, r', c1, by rw [List.getElem?_set_ne (by omega), c2], c3, ?_⟩
          by_cases hc2 : k < K
          · rw [if_pos hc2] at c4; rw [if_pos (by omega)]; exact c4
          · rw [if_neg hc2] at c4; rw [if_neg (by omega)]; exact c4)
  refine ⟨im, h1, fun k hk => ?_⟩
  obtain ⟨p, p', a, b, -, d⟩ := h3 k hk
  rw [if_pos (by omega)] at d
  exact ⟨p, p', a, b, d⟩

/-- The way back does not exist: the loop over the widths goes beyond the last edge, whatever the map; and
the conversion itself works on a copy, so that the counts would be left as they were. -/
theorem C69_healpix_violates (image : List (List ℝ)) (edges data : List ℝ) (npix : Nat) (sa : ℝ) (he : 1 ≤ edges.length) :
    hpxCountsOf image edges data npix sa = .ub ∧
    ∀ widths out out', hpxIntegral out image widths npix sa = .ok out' → out' = out := by
  constructor
  · unfold hpxCountsOf
    rw [loop_ub_inv (fun _ s => s.length = edges.length - 1) (k := edges.length - 1) (by omega) (by simp)
      (fun i s _ hi hs => ⟨s.set i (el edges (i + 1) - el edges i), by
        rw [vget_el (by omega), Res.bind_ok, vget_el (by omega), Res.bind_ok, vset_lt _ _ _ (by omega)], by simp [hs]⟩)
      (fun s _ => by
        rw [vget_ge _ _ (by omega)]
        rfl)]
    rfl
  · intro widths out out' h
    unfold hpxIntegral at h
    obtain ⟨_, -, h⟩ := Res.bind_eq_ok.1 h
    cases h
    rfl

/-- A square counts map of one pixel. -/
example (Ω : Omega) : ∃ m, ofCounts Ω ⟨1, 1, (0, 0), (1, 1), [100, 1000], [5], [2]⟩ true false = .ok m ∧
    countsOf Ω m ⟨1, 1, (0, 0), (1, 1), [100, 1000], [5], [2]⟩ = .ok ⟨1, 1, (0, 0), (1, 1), [100, 1000], [5], [2]⟩ := by
  obtain ⟨m, h1, -, h2⟩ := C69_roundtrip_partial Ω ⟨1, 1, (0, 0), (1, 1), [100, 1000], [5], [2]⟩ false
    ⟨by simp, by simp; norm_num, rfl, rfl⟩ rfl (by simp) (by simp)
  exact ⟨m, h1, h2⟩

/-- Two pixels in a row. -/
example (Ω : Omega) : ofCounts Ω ⟨2, 1, (0, 0), (1, 1), [100, 1000], [5, 6], [2, 2]⟩ true false = .ub :=
  C69_nonsquare_violates Ω _ false ⟨by simp, by simp; norm_num, rfl, rfl⟩ (by simp) (by simp) (by simp) (by simp)

end Verif.MapInt
