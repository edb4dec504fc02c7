import Verif.Vec
import Verif.ExpMap.Model
import Verif.ExpMap.Spec
import Mathlib.Tactic.Linarith
import Mathlib.Tactic.FieldSimp
import Mathlib.Tactic.Ring
import Mathlib.Algebra.BigOperators.Fin
import Mathlib.Algebra.BigOperators.Ring.Finset
import Mathlib.Algebra.Order.BigOperators.Ring.Finset
set_option linter.unusedSectionVars false
set_option linter.unusedSimpArgs false
set_option linter.unusedVariables false
/-
Lemmas for the maps of the exposure.
-/
namespace Verif.ExpMap
open Verif Verif.Vec Real Spec

/-! ### The image -/

section image
variable {nlon nlat ne : Nat} {f : Nat → Nat → List ℝ}

theorem place_eq (i j k : Nat) : place nlon nlat i j k = (k * nlat + j) * nlon + i := by
  unfold place; ring

theorem place_lt {i j k : Nat} (hi : i < nlon) (hj : j < nlat) (hk : k < ne) :
    (k * nlat + j) * nlon + i < ne * nlat * nlon := idx_lt hi (idx_lt hj hk)

theorem place_inj {i j k i' j' k' : Nat} (hi : i < nlon) (hj : j < nlat) (hi' : i' < nlon) (hj' : j' < nlat)
    (h : (k * nlat + j) * nlon + i = (k' * nlat + j') * nlon + i') : k = k' ∧ j = j' ∧ i = i' := by
  obtain ⟨h1, h2⟩ := idx_inj hi hi' h
  obtain ⟨h3, h4⟩ := idx_inj hj hj' h1
  exact ⟨h3, h4, h2⟩

/-- What the image holds when the values `done` have been stored. -/
def Inv (nlon nlat ne : Nat) (f : Nat → Nat → List ℝ) (done : Nat → Nat → Nat → Prop) (m : List ℝ) : Prop :=
  m.length = ne * nlat * nlon ∧ ∀ k j i, k < ne → j < nlat → i < nlon →
    (done k j i → val m ((k * nlat + j) * nlon + i) = val (f (i + 1) (j + 1)) k) ∧
    (¬ done k j i → val m ((k * nlat + j) * nlon + i) = 0)

theorem Inv.congr {P Q : Nat → Nat → Nat → Prop} {m : List ℝ} (h : Inv nlon nlat ne f P m)
    (he : ∀ k j i, k < ne → j < nlat → i < nlon → (P k j i ↔ Q k j i)) : Inv nlon nlat ne f Q m := by
  refine ⟨h.1, fun k j i hk hj hi => ?_⟩
  rw [← he k j i hk hj hi]
  exact h.2 k j i hk hj hi

theorem store_inv {P : Nat → Nat → Nat → Prop} {m : List ℝ} (h : Inv nlon nlat ne f P m) {i j : Nat}
    (hi : i < nlon) (hj : j < nlat) (hf : ne ≤ (f (i + 1) (j + 1)).length) :
    ∃ m', storePixel nlon nlat ne j i (f (i + 1) (j + 1)) m = .ok m' ∧
      Inv nlon nlat ne f (fun k' j' i' => P k' j' i' ∨ (j' = j ∧ i' = i)) m' := by
  unfold storePixel
  obtain ⟨m', h1, h2⟩ := loop_inv (lo := 0) (n := ne) (s := m)
    (body := fun k m => do
      let v ← vget (f (i + 1) (j + 1)) k
      vput m ((k * nlat + j) * nlon + i) v)
    (fun k m => Inv nlon nlat ne f (fun k' j' i' => P k' j' i' ∨ (j' = j ∧ i' = i ∧ k' < k)) m)
    (h.congr fun k' j' i' _ _ _ => by simp)
    (by
      rintro k w _ hk ⟨hl, hw⟩
      rw [Nat.zero_add] at hk
      have hp := place_lt hi hj hk
      simp only [vget_val (show k < (f (i + 1) (j + 1)).length by omega), Res.bind_ok]
      refine ⟨_, by unfold vput; rw [if_pos (by rw [hl]; exact hp)], by simpa using hl, ?_⟩
      intro k' j' i' hk' hj' hi'
      rw [val_set (by rw [hl]; exact hp)]
      by_cases he : (k' * nlat + j') * nlon + i' = (k * nlat + j) * nlon + i
      · obtain ⟨rfl, rfl, rfl⟩ := place_inj hi' hj' hi hj he
        rw [if_pos rfl]
        exact ⟨fun _ => rfl, fun hn => absurd (Or.inr ⟨rfl, rfl, Nat.lt_succ_self _⟩) hn⟩
      · rw [if_neg he]
        have key : (P k' j' i' ∨ (j' = j ∧ i' = i ∧ k' < k + 1)) ↔ (P k' j' i' ∨ (j' = j ∧ i' = i ∧ k' < k)) := by
          constructor
          · rintro (h | ⟨h1, h2, h3⟩)
            · exact Or.inl h
            · refine Or.inr ⟨h1, h2, ?_⟩
              rcases Nat.lt_succ_iff_lt_or_eq.1 h3 with h | h
              · exact h
              · subst h1 h2 h; exact absurd rfl he
          · rintro (h | ⟨h1, h2, h3⟩)
            · exact Or.inl h
            · exact Or.inr ⟨h1, h2, by omega⟩
        simp only [key]
        exact hw k' j' i' hk' hj' hi')
  refine ⟨m', h1, h2.congr fun k' j' i' hk _ _ => ?_⟩
  simp [hk]

theorem computeMap_inv (hf : ∀ i j, ne ≤ (f i j).length) (sub : Option Sub) :
    ∃ m, computeMap nlon nlat ne sub f = .ok m ∧
      Inv nlon nlat ne f (fun _ j i => (bounds nlon nlat sub).imin ≤ i ∧ (i : ℤ) < (bounds nlon nlat sub).imax ∧
        (bounds nlon nlat sub).jmin ≤ j ∧ (j : ℤ) < (bounds nlon nlat sub).jmax) m := by
  have hb : 0 ≤ (bounds nlon nlat sub).imin ∧ (bounds nlon nlat sub).imax ≤ nlon ∧
      0 ≤ (bounds nlon nlat sub).jmin ∧ (bounds nlon nlat sub).jmax ≤ nlat := by
    cases sub with
    | none => simp [bounds]
    | some s => simp [bounds]
  unfold computeMap
  generalize bounds nlon nlat sub = b at hb
  obtain ⟨b1, b2, b3, b4⟩ := hb
  simp only []
  obtain ⟨m', h1, h2⟩ := loop_inv (lo := b.jmin.toNat) (n := (b.jmax - b.jmin).toNat)
    (s := List.replicate (ne * nlat * nlon) (0 : ℝ))
    (body := fun j m =>
      loop (fun i m => storePixel nlon nlat ne j i (f (i + 1) (j + 1)) m)
        b.imin.toNat (b.imax - b.imin).toNat m)
    (fun j m => Inv nlon nlat ne f (fun _ j' i' => b.imin ≤ i' ∧ (i' : ℤ) < b.imax ∧ b.jmin ≤ j' ∧ j' < j) m)
    (by
      refine ⟨by simp, fun k j i _ _ _ => ⟨fun h => ?_, fun _ => by simp⟩⟩
      omega)
    (by
      intro j w hj hj' hw
      obtain ⟨w', g1, g2⟩ := loop_inv (lo := b.imin.toNat) (n := (b.imax - b.imin).toNat) (s := w)
        (body := fun i m => storePixel nlon nlat ne j i (f (i + 1) (j + 1)) m)
        (fun i m => Inv nlon nlat ne f (fun _ j' i' => (b.imin ≤ i' ∧ (i' : ℤ) < b.imax ∧ b.jmin ≤ j' ∧ j' < j) ∨
          (j' = j ∧ b.imin ≤ i' ∧ i' < i)) m)
        (hw.congr fun k' j' i' _ _ _ => by
          constructor
          · exact Or.inl
          · rintro (h | h)
            · exact h
            · omega)
        (by
          intro i w hi hi' hw
          obtain ⟨m', e1, e2⟩ := store_inv hw (i := i) (j := j) (by omega) (by omega) (hf _ _)
          refine ⟨m', e1, e2.congr fun k' j' i' _ _ _ => ?_⟩
          omega)
      refine ⟨w', g1, g2.congr fun k' j' i' _ _ _ => ?_⟩
      omega)
  refine ⟨m', h1, h2.congr fun k j i _ hj hi => ?_⟩
  omega

theorem bounds_in (sub : Option Sub) {i j : Nat} (hi : i < nlon) (hj : j < nlat) :
    ((bounds nlon nlat sub).imin ≤ i ∧ (i : ℤ) < (bounds nlon nlat sub).imax ∧
        (bounds nlon nlat sub).jmin ≤ j ∧ (j : ℤ) < (bounds nlon nlat sub).jmax) ↔
      ∀ s, sub = some s → InRange s.imin s.imax s.jmin s.jmax i j := by
  cases sub with
  | none => simp [bounds]; omega
  | some s =>
    simp only [bounds, Option.some.injEq, forall_eq', InRange]
    omega

theorem readPlane_eq {flat : List ℝ} : ∀ {n indx : Nat}, indx + n ≤ flat.length →
    ∃ l, readPlane flat n indx = .ok (l, indx + n) ∧ l.length = n ∧ ∀ p < n, val l p = val flat (indx + p)
  | 0, indx, h => ⟨[], rfl, rfl, fun p hp => absurd hp (Nat.not_lt_zero _)⟩
  | n + 1, indx, h => by
    obtain ⟨l, h1, h2, h3⟩ := readPlane_eq (flat := flat) (n := n) (indx := indx + 1) (by omega)
    refine ⟨val flat indx :: l, ?_, by simp [h2], ?_⟩
    · have hv : vat flat indx = .ok (val flat indx) := by
        unfold vat; rw [getElem?_val (by omega)]
      rw [readPlane, hv, Res.bind_ok, h1, Res.bind_ok]
      simp only []
      rw [show indx + 1 + n = indx + (n + 1) by omega]
    · intro p hp
      cases p with
      | zero => rfl
      | succ p =>
        rw [val_cons_succ, h3 p (by omega)]
        congr 1; omega

theorem readPlanes_eq {flat : List ℝ} {npix : Nat} : ∀ {ne indx : Nat}, indx + ne * npix ≤ flat.length →
    ∃ ps, readPlanes flat npix ne indx = .ok ps ∧ ps.length = ne ∧
      ∀ k < ne, ∃ l, ps[k]? = some l ∧ l.length = npix ∧ ∀ p < npix, val l p = val flat (indx + k * npix + p)
  | 0, indx, h => ⟨[], rfl, rfl, fun k hk => absurd hk (Nat.not_lt_zero _)⟩
  | ne + 1, indx, h => by
    rw [Nat.add_mul, Nat.one_mul] at h
    obtain ⟨l, h1, h2, h3⟩ := readPlane_eq (flat := flat) (n := npix) (indx := indx) (by omega)
    obtain ⟨ps, g1, g2, g3⟩ := readPlanes_eq (flat := flat) (npix := npix) (ne := ne) (indx := indx + npix) (by omega)
    refine ⟨l :: ps, ?_, by simp [g2], ?_⟩
    · rw [readPlanes, h1, Res.bind_ok]
      simp only []
      rw [g1, Res.bind_ok]
    · intro k hk
      cases k with
      | zero => exact ⟨l, rfl, h2, fun p hp => by rw [h3 p hp]; congr 1; omega⟩
      | succ k =>
        obtain ⟨l', e1, e2, e3⟩ := g3 k (by omega)
        refine ⟨l', by simpa using e1, e2, fun p hp => ?_⟩
        rw [e3 p hp]
        congr 1
        ring
end image

/-! ### Energies -/

section energies
variable {es : List ℝ}

theorem grid_lt (h : Grid es) {i j : Nat} (hij : i < j) (hj : j < es.length) : val es i < val es j :=
  pairwise_val.1 h.inc i j hij hj

theorem grid_le (h : Grid es) {i j : Nat} (hij : i ≤ j) (hj : j < es.length) : val es i ≤ val es j := by
  rcases Nat.eq_or_lt_of_le hij with e | e
  · rw [e]
  · exact (grid_lt h e hj).le

theorem grid_pos (h : Grid es) {i : Nat} (hi : i < es.length) : 0 < val es i := h.pos _ (val_mem hi)

theorem upperBound_eq {b : List ℝ} {x : ℝ} {k : Nat} (hk : k ≤ b.length) (h1 : ∀ i < k, val b i ≤ x)
    (h2 : k < b.length → x < val b k) : upperBound b x = k := by
  unfold upperBound
  rcases Nat.eq_or_lt_of_le hk with e | e
  · rw [e, List.findIdx_eq_length]
    intro y hy
    obtain ⟨i, hi, rfl⟩ := mem_val hy
    have := h1 i (by omega)
    simpa using this
  · rw [List.findIdx_eq e]
    refine ⟨?_, ?_⟩
    · have := h2 e
      rw [val_lt e] at this
      simpa using this
    · intro i hi
      have := h1 i hi
      rw [val_lt (by omega)] at this
      simpa using this

theorem interval_of (h : Grid es) {a : ℝ} (h1 : val es 0 ≤ a) (h2 : a < val es (es.length - 1)) :
    ∃ j, j + 1 < es.length ∧ val es j ≤ a ∧ a < val es (j + 1) ∧ upperBound es a = j + 1 := by
  have key : ∀ m, m < es.length → a < val es m → ∃ j, j < m ∧ val es j ≤ a ∧ a < val es (j + 1) := by
    intro m
    induction m with
    | zero => intro _ h; exact absurd h1 (not_le.2 h)
    | succ m ih =>
      intro hm ha
      by_cases hc : a < val es m
      · obtain ⟨j, g1, g2⟩ := ih (by omega) hc
        exact ⟨j, by omega, g2⟩
      · exact ⟨m, by omega, not_lt.1 hc, ha⟩
  have := h.two
  obtain ⟨j, g1, g2, g3⟩ := key _ (by omega) h2
  refine ⟨j, by omega, g2, g3, upperBound_eq (by omega) (fun i hi => ?_) fun _ => g3⟩
  exact (grid_le h (by omega) (by omega)).trans g2

theorem grid_head (h : Grid es) : es.head? = some (val es 0) := by
  have := h.two
  rw [List.head?_eq_getElem?, getElem?_val (by omega)]

theorem grid_last (h : Grid es) : es.getLast? = some (val es (es.length - 1)) := by
  have := h.two
  rw [List.getLast?_eq_getElem?, getElem?_val (by omega)]

/-- The energies between which the exposure is interpolated. -/
theorem upperIndex_eq (h : Grid es) (e : ℝ) :
    ∃ k, upperIndex es e = .ok (k + 1) ∧ k + 1 < es.length ∧
      (val es 0 ≤ e → val es k ≤ e) ∧ (e ≤ val es (es.length - 1) → e ≤ val es (k + 1)) := by
  have h2 := h.two
  unfold upperIndex
  rw [grid_head h, grid_last h]
  simp only []
  by_cases h0 : e < val es 0
  · refine ⟨0, by rw [if_pos h0], by omega, fun g => absurd g (not_le.2 h0), fun _ => ?_⟩
    exact (h0.trans (grid_lt h (by omega) (by omega))).le
  rw [if_neg h0]
  by_cases h1 : val es (es.length - 1) ≤ e
  · refine ⟨es.length - 2, by rw [if_pos h1]; congr 1; omega, by omega, fun _ => ?_, fun g => ?_⟩
    · exact (grid_le h (by omega) (by omega)).trans h1
    · rw [show es.length - 2 + 1 = es.length - 1 by omega]; exact g
  · rw [if_neg h1]
    obtain ⟨j, g1, g2, g3, g4⟩ := interval_of h (not_lt.1 h0) (not_le.1 h1)
    exact ⟨j, by rw [g4], g1, fun _ => g2, fun _ => g3.le⟩

theorem lowerIndex_eq (h : Grid es) (e : ℝ) :
    ∃ k, lowerIndex es e = some k ∧ k + 1 < es.length ∧
      (val es 0 ≤ e → val es k ≤ e) ∧ (e ≤ val es (es.length - 1) → e ≤ val es (k + 1)) := by
  have h2 := h.two
  unfold lowerIndex
  rw [grid_head h, grid_last h]
  simp only []
  by_cases h0 : e ≤ val es 0
  · refine ⟨0, by rw [if_pos h0], by omega, fun g => g, fun _ => ?_⟩
    exact (h0.trans_lt (grid_lt h (by omega) (by omega))).le
  rw [if_neg h0]
  by_cases h1 : val es (es.length - 1) ≤ e
  · refine ⟨es.length - 2, by rw [if_pos h1, if_neg (by omega)], by omega, fun _ => ?_, fun g => ?_⟩
    · exact (grid_le h (by omega) (by omega)).trans h1
    · rw [show es.length - 2 + 1 = es.length - 1 by omega]; exact g
  · rw [if_neg h1]
    obtain ⟨j, g1, g2, g3, g4⟩ := interval_of h (not_le.1 h0).le (not_le.1 h1)
    exact ⟨j, by rw [g4]; rfl, g1, fun _ => g2, fun _ => g3.le⟩

theorem log_ratio_pos (h : Grid es) {k : Nat} (hk : k + 1 < es.length) :
    0 < log (val es (k + 1) / val es k) := by
  apply log_pos
  rw [one_lt_div (grid_pos h (by omega))]
  exact grid_lt h (by omega) hk

end energies

/-! ### Exposures -/

section exposures
variable {D : Type} {n : Nat} {d : Fin n → D} {w : Fin n → ℝ} {es : List ℝ} {y : Nat → Fin n → ℝ}

theorem vget_ofFn {α : Type} (f : Fin n → α) (j : Fin n) : vget (List.ofFn f) j = .ok (f j) := by
  rw [vget_lt _ _ (by simp)]
  simp

theorem pixel_eq (h : Grid es) {k : Nat} (hk : k + 1 < es.length) (e : ℝ) (j : Fin n) :
    pixelExposure (emap d w es y) e (k + 1) j =
      .ok (log (e / val es k) / log (val es (k + 1) / val es k) * (y (k + 1) j - y k j) + y k j) := by
  have hp : ∀ i < es.length, vget (emap d w es y).planes i = .ok (List.ofFn (y i)) := by
    intro i hi
    unfold emap
    rw [vget_lt _ _ (by simpa using hi)]
    simp
  unfold pixelExposure
  rw [if_neg (by omega), Nat.add_sub_cancel, hp k (by omega), hp (k + 1) hk]
  simp only [emap, vget_val (show k < es.length by omega), vget_val hk, vget_ofFn, Res.bind_ok]
  rw [if_neg (log_ratio_pos h hk).ne']

theorem exposureAt_eq (h : Grid es) {k : Nat} (hk : k + 1 < es.length) {e : ℝ}
    (hu : upperIndex es e = .ok (k + 1)) (dist : D → ℝ → ℝ) :
    exposureAt (emap d w es y) dist e = .ok (total Finset.univ
      (fun j => log (e / val es k) / log (val es (k + 1) / val es k) * (y (k + 1) j - y k j) + y k j)
      (fun j => dist (d j) e) w) := by
  have hlen : (emap d w es y).dirs.length = n := by simp [emap]
  unfold exposureAt
  rw [show (emap d w es y).energies = es from rfl, hu, Res.bind_ok, hlen]
  rw [loop_sum (fun j => if hj : j < n then
    (log (e / val es k) / log (val es (k + 1) / val es k) * (y (k + 1) ⟨j, hj⟩ - y k ⟨j, hj⟩) + y k ⟨j, hj⟩)
      * dist (d ⟨j, hj⟩) e * w ⟨j, hj⟩ else 0)]
  · rw [zero_add, total, Finset.sum_range]
    congr 1
    refine Finset.sum_congr rfl fun j _ => ?_
    simp
  · intro j s _ hj
    rw [Nat.zero_add] at hj
    have hp := pixel_eq (d := d) (w := w) (y := y) h hk e ⟨j, hj⟩
    simp only [] at hp
    have hd : vget (emap d w es y).dirs j = .ok (d ⟨j, hj⟩) := vget_ofFn d ⟨j, hj⟩
    have hw : vget (emap d w es y).omega j = .ok (w ⟨j, hj⟩) := vget_ofFn w ⟨j, hj⟩
    simp only [hp, hd, hw, Res.bind_ok, hj, dif_pos]

theorem foldl_if {α : Type} (l : List α) (c : α → Bool) (g : α → ℝ) (a : ℝ) :
    l.foldl (fun acc p => if c p then acc + g p else acc) a = a + (l.map fun p => if c p then g p else 0).sum := by
  induction l generalizing a with
  | nil => simp
  | cons p l ih =>
    rw [List.foldl_cons, ih, List.map_cons, List.sum_cons]
    by_cases hc : c p
    · simp [hc, add_assoc]
    · simp [hc]

theorem gridExposure_eq (norm : ℝ) (map : D → ℝ → ℝ) (x : Field D) (k : Nat) (e : ℝ) :
    gridExposure ⟨norm, List.ofFn fun j => (d j, w j), map⟩ x k e =
      total (Finset.univ.filter fun j => x.within (d j)) (fun j => x.plane (d j) k) (fun j => map (d j) e) w := by
  unfold gridExposure
  rw [foldl_if _ (fun p : D × ℝ => x.within p.1) (fun p => p.2 * map p.1 e * x.plane p.1 k), zero_add, List.map_ofFn, List.sum_ofFn, total,
    Finset.sum_filter]
  refine Finset.sum_congr rfl fun j _ => ?_
  simp only [Function.comp]
  by_cases hc : x.within (d j)
  · simp [hc]; ring
  · simp [hc]

theorem powerLaw_pos {x x1 x2 y1 y2 : ℝ} (h1 : 0 < x1) (h2 : x1 < x2) (g1 : 0 < y1) (g2 : 0 < y2) :
    powerLaw x x1 x2 y1 y2 = .ok (y1 * (x / x1) ^ (log (y2 / y1) / log (x2 / x1))) := by
  have hl : 0 < log (x2 / x1) := log_pos (by rwa [one_lt_div h1])
  unfold powerLaw
  rw [if_neg (fun h => g1.ne' h.1), if_neg (by simp only [not_or, not_le]; exact ⟨h1, h1.trans h2, g1, g2⟩),
    if_neg hl.ne']

theorem powerLaw_left {x1 x2 y1 y2 : ℝ} (h1 : 0 < x1) (h2 : x1 < x2) (g1 : 0 < y1) (g2 : 0 < y2) :
    powerLaw x1 x1 x2 y1 y2 = .ok y1 := by
  rw [powerLaw_pos h1 h2 g1 g2, div_self h1.ne', one_rpow, mul_one]

theorem powerLaw_right {x1 x2 y1 y2 : ℝ} (h1 : 0 < x1) (h2 : x1 < x2) (g1 : 0 < y1) (g2 : 0 < y2) :
    powerLaw x2 x1 x2 y1 y2 = .ok y2 := by
  have hr : 0 < x2 / x1 := div_pos (h1.trans h2) h1
  have hl : 0 < log (x2 / x1) := log_pos (by rwa [one_lt_div h1])
  rw [powerLaw_pos h1 h2 g1 g2, rpow_def_of_pos hr, mul_div_cancel₀ _ hl.ne', exp_log (div_pos g2 g1),
    mul_div_cancel₀ _ g1.ne']

theorem val_gridExposures (s : SrcMap D) (x : Field D) (es : List ℝ) {k : Nat} (hk : k < es.length) :
    vget (gridExposures s x es) k = .ok (gridExposure s x k (val es k)) := by
  unfold gridExposures
  rw [vget_lt _ _ (by simpa using hk)]
  simp [val_lt hk]

theorem mapExposure_grid (h : Grid es) (s : SrcMap D) (x : Field D) {k : Nat} (hk : k < es.length)
    (hp : ∀ i < es.length, 0 < gridExposure s x i (val es i)) :
    mapExposureAt es (gridExposures s x es) (val es k) = .ok (gridExposure s x k (val es k)) := by
  obtain ⟨i, h1, h2, h3, h4⟩ := lowerIndex_eq h (val es k)
  have a1 := h3 (grid_le h (by omega) hk)
  have a2 := h4 (grid_le h (by omega) (by omega))
  have hik : i = k ∨ i + 1 = k := by
    rcases Nat.lt_trichotomy i k with g | g | g
    · rcases Nat.eq_or_lt_of_le (Nat.succ_le_of_lt g) with e | e
      · exact Or.inr e
      · exact absurd (grid_lt h e hk) (not_lt.2 a2)
    · exact Or.inl g
    · exact absurd (grid_lt h g (by omega)) (not_lt.2 a1)
  unfold mapExposureAt
  rw [h1]
  simp only [vget_val (show i < es.length by omega), vget_val h2, val_gridExposures s x es h2,
    val_gridExposures s x es (show i < es.length by omega), Res.bind_ok]
  rcases hik with rfl | rfl
  · exact powerLaw_left (grid_pos h hk) (grid_lt h (by omega) h2) (hp _ hk) (hp _ h2)
  · exact powerLaw_right (grid_pos h (by omega)) (grid_lt h (by omega) h2) (hp _ (by omega)) (hp _ hk)

end exposures

end Verif.ExpMap
