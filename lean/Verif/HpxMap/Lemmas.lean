import Verif.HpxMap.Model
import Verif.HpxMap.Spec
import Verif.Energy.Lemmas
import Verif.Wcs.Props2
/-
Lemmas about maps in equal-area pixels.
-/
set_option linter.unusedSectionVars false
set_option linter.unusedSimpArgs false
set_option linter.unusedVariables false
namespace Verif.HpxMap
open Spec Vec
variable {δ : Type}

/-! ### Integrals -/

theorem nth_val (l : List ℝ) (k : Nat) : nth l k = val l k := rfl

theorem integral_ok {m : Map} {k : Nat} {p : Plane} (hp : m.planes[k]? = some p) (hl : p.vals.length = m.nPixels) :
    integral m k = .ok (skyIntegral m.nside p.vals) := by
  unfold integral
  rw [vget_eq_ok.2 hp, Res.bind_ok]
  rw [loop_sum (fun i => val p.vals i) 0 (by
    intro i s h1 h2
    rw [vget_val (by omega), Res.bind_ok]), Res.bind_ok]
  congr 1
  unfold skyIntegral Map.solidAngle pixels
  rw [sum_val, hl]
  simp only [zero_add]
  rw [mul_comm]
  rfl

theorem trapezoids_ok {es vs : List ℝ} (h : vs.length = es.length) : trapezoids es vs = .ok (energyIntegral es vs) := by
  unfold trapezoids
  rw [loop_sum (fun k => (val vs (k + 1) * val es (k + 1) + val vs k * val es k) / 2 * Real.log (val es (k + 1) / val es k)) 0 (by
    intro i s h1 h2
    rw [vget_val (by omega), Res.bind_ok, vget_val (by omega), Res.bind_ok, vget_val (by omega), Res.bind_ok,
      vget_val (by omega), Res.bind_ok])]
  congr 1
  unfold energyIntegral
  simp only [zero_add, nth_val]
  refine Finset.sum_congr rfl fun k _ => ?_
  rw [mul_comm (val vs (k + 1)), mul_comm (val vs k)]

/-- The total of a map. -/
noncomputable def totalOf (es vs : List ℝ) : ℝ := match es with | [_] => val vs 0 | _ => energyIntegral es vs

theorem computeIntegrals_ok {m : Map} (h0 : m.energies ≠ []) (hc : m.energies.length ≤ m.planes.length)
    (hw : ∀ k (h : k < m.energies.length), (m.planes[k]'(by omega)).vals.length = pixels m.nside) :
    m.computeIntegrals = .ok { m with
      integrals := (m.planes.take m.energies.length).map (fun p => skyIntegral m.nside p.vals)
      total := totalOf m.energies ((m.planes.take m.energies.length).map (fun p => skyIntegral m.nside p.vals)) } := by
  have hv : (List.range m.energies.length).mapM (integral m) =
      .ok ((m.planes.take m.energies.length).map (fun p => skyIntegral m.nside p.vals)) := by
    rw [mapM_ok (integral m) (fun k => val ((m.planes.take m.energies.length).map (fun p => skyIntegral m.nside p.vals)) k)]
    · congr 1
      apply ext_val
      · simp [hc]
      · intro k hk
        rw [val_map_range _ (by simpa using hk)]
    · intro k hk
      rw [List.mem_range] at hk
      rw [integral_ok (List.getElem?_eq_getElem (by omega)) (hw k hk), val_lt (by simp; omega)]
      simp
  unfold Map.computeIntegrals
  rw [hv, Res.bind_ok]
  set vs := (m.planes.take m.energies.length).map (fun p => skyIntegral m.nside p.vals) with hvs
  have hl : vs.length = m.energies.length := by simp [hvs, hc]
  have hpos : 0 < m.energies.length := List.length_pos_iff.2 h0
  cases hm : m.energies with
  | nil => exact absurd hm h0
  | cons e es =>
    cases es with
    | nil => simp only; rw [vget_val (by omega), Res.bind_ok]; rfl
    | cons e' es =>
      simp only
      rw [trapezoids_ok (by rw [hl, hm]), Res.bind_ok]
      rfl

/-! ### Files -/

theorem dataColumn_true (n : List Char) : dataColumn n = true := by simp [dataColumn]

theorem readColumn_eq (junk : Nat → ℝ) (f : File) {vals : List ℝ} (h : vals.length ≤ pixels f.nside) :
    readColumn junk f vals = .ok ⟨f.nside, f.nest, vals ++ (((List.range (pixels f.nside)).map junk).drop vals.length)⟩ := by
  unfold readColumn
  have hg : ((List.range (12 * f.nside * f.nside)).map junk).length = pixels f.nside := by simp [pixels]
  rw [show ((List.range (12 * f.nside * f.nside)).map junk) =
    vals.take 0 ++ (((List.range (pixels f.nside)).map junk).drop 0) by simp [pixels]]
  rw [loop_eq (fun i => vals.take i ++ (((List.range (pixels f.nside)).map junk).drop i)) (lo := 0) (n := vals.length), Res.bind_ok]
  · simp
  · intro i _ hi
    have hi' : i < vals.length := by omega
    rw [vget_lt _ _ hi', Res.bind_ok, vset_lt _ _ _ (by simp; omega)]
    congr 1
    rw [List.set_append_right _ _ (by simp)]
    rw [show i - (vals.take i).length = 0 by rw [List.length_take]; omega, List.take_add_one, List.getElem?_eq_getElem hi', List.append_assoc]
    congr 1
    rw [List.drop_eq_getElem_cons (by simp; omega)]
    simp

theorem readColumn_whole (junk : Nat → ℝ) (f : File) {vals : List ℝ} (h : vals.length = pixels f.nside) :
    readColumn junk f vals = .ok ⟨f.nside, f.nest, vals⟩ := by
  rw [readColumn_eq junk f h.le, List.drop_eq_nil_of_le (by simp [h]), List.append_nil]

theorem readColumn_long (junk : Nat → ℝ) (f : File) {vals : List ℝ} (h : pixels f.nside < vals.length) :
    readColumn junk f vals = .ub := by
  unfold readColumn
  have key : ∀ n lo (im : List ℝ), im.length = pixels f.nside → lo ≤ pixels f.nside → lo + n = vals.length →
      loop (fun i im => do
        let x ← vget vals i
        vset im i x) lo n im = .ub := by
    intro n
    induction n with
    | zero => intro lo im _ h2 h3; omega
    | succ n ih =>
      intro lo im h1 h2 h3
      rw [loop, vget_lt _ _ (by omega), Res.bind_ok]
      rcases Nat.lt_or_ge lo (pixels f.nside) with hlt | hge
      · rw [vset_lt _ _ _ (by omega), Res.bind_ok]
        exact ih _ _ (by simpa using h1) (by omega) (by omega)
      · rw [vset_ge _ _ _ (by omega), Res.bind_ub]
  rw [key _ 0 _ (by simp [pixels]) (by omega) (by omega), Res.bind_ub]

theorem filter_data (f : File) : (f.cols.filter fun c => dataColumn c.1).map Prod.snd = f.cols.map Prod.snd := by
  rw [List.filter_eq_self (p := fun c : List Char × List ℝ => dataColumn c.1) |>.2 (fun c _ => dataColumn_true c.1)]

/-! ### Values -/

theorem checkIndex_ok {m : Map} {k : Nat} (h : k ≤ m.energies.length) : m.checkIndex k = .ok ⟨⟩ := if_neg (by omega)

theorem Spec.Tidy.get {m : Map} (h : Tidy m) {k : Nat} (hk : k < m.energies.length) :
    ∃ p, m.planes[k]? = some p ∧ p.nside = m.nside ∧ p.nest = m.nest ∧ p.vals.length = pixels m.nside := by
  have hk' : k < m.planes.length := by rw [h.count]; exact hk
  exact ⟨m.planes[k], List.getElem?_eq_getElem hk', h.whole _ (List.getElem_mem hk')⟩

theorem plane_pixel {m : Map} (h : Tidy m) {lib : Library δ} (hs : Sound lib) (hi : m.interp = false) {k : Nat}
    (hk : k < m.energies.length) (d : δ) : m.plane lib d k = .ok (at' m k (lib.pixel m.nside m.nest d)) := by
  obtain ⟨p, hp, h1, h2, h3⟩ := h.get hk
  unfold Map.plane
  rw [checkIndex_ok hk.le, Res.bind_ok, vget_eq_ok.2 hp, Res.bind_ok, hi, if_neg (by simp), h1, h2,
    vget_val (by rw [h3]; exact hs.range _ _ _ h.side)]
  unfold at'
  rw [hp]
  rfl

theorem plane_interp {m : Map} (h : Tidy m) {lib : Library δ} (hs : Convex lib) (hi : m.interp = true) {k : Nat}
    (hk : k < m.energies.length) (d : δ) :
    m.plane lib d k = .ok ((lib.weights m.nside m.nest d).map (fun w => w.2 * at' m k w.1)).sum := by
  obtain ⟨p, hp, h1, h2, h3⟩ := h.get hk
  unfold Map.plane
  rw [checkIndex_ok hk.le, Res.bind_ok, vget_eq_ok.2 hp, Res.bind_ok, hi, if_pos rfl]
  unfold interpolated
  rw [h1, h2, mapM_ok _ (fun w => w.2 * at' m k w.1), Res.bind_ok]
  intro w hw
  rw [vget_val (by rw [h3]; exact (hs.range _ _ _ h.side w hw).1), Res.bind_ok]
  unfold at'
  rw [hp]
  rfl

theorem sorted_lt {es : List ℝ} (h : es.Pairwise (· < ·)) {i j : Nat} (hij : i < j) (hj : j < es.length) :
    es[i] < es[j] := List.pairwise_iff_getElem.1 h i j (by omega) hj hij

theorem index_eq {m : Map} (h : m.energies.Pairwise (· < ·)) {k : Nat} (hk : k + 1 < m.energies.length) {e : ℝ}
    (h1 : k = 0 ∨ m.energies[k] ≤ e) (h2 : k + 2 = m.energies.length ∨ e < m.energies[k + 1]) : m.energyIndex e = k := by
  have hlow : ∀ i (hi : i < m.energies.length), 1 ≤ i → i ≤ k → m.energies[i] ≤ e := by
    intro i hi h0 hik
    rcases h1 with h1 | h1
    · omega
    · rcases Nat.lt_or_ge i k with hlt | hge
      · exact ((sorted_lt h hlt (by omega)).le).trans h1
      · have : i = k := by omega
        subst this; exact h1
  classical
  have hidx : ∀ q : ℝ → Bool, (∀ b, q b = true ↔ e < b) →
      (if m.energies.length - 2 < m.energies.findIdx q - 1 then m.energies.length - 2
        else m.energies.findIdx q - 1) = k := by
    intro q hq
    have hge : k = 0 ∨ k < m.energies.findIdx q := by
      rcases Nat.eq_zero_or_pos k with h0 | h0
      · exact Or.inl h0
      · right
        by_contra hc
        rw [not_lt] at hc
        have hl : m.energies.findIdx q < m.energies.length := by omega
        have ht := List.findIdx_getElem (w := hl)
        rw [hq] at ht
        rcases Nat.eq_zero_or_pos (m.energies.findIdx q) with hz | hz
        · have h3 := hlow 1 (by omega) le_rfl h0
          have h4 := sorted_lt h (show 0 < 1 by omega) (by omega)
          simp only [hz] at ht
          linarith
        · have := hlow _ hl hz hc
          linarith
    rcases h2 with h2 | h2
    · split <;> omega
    · have hle : m.energies.findIdx q ≤ k + 1 := by
        by_contra hc
        have := List.not_of_lt_findIdx (show k + 1 < m.energies.findIdx q by omega)
        rw [Bool.eq_false_iff, ne_eq, hq] at this
        exact this h2
      rw [if_neg (by omega)]
      omega
  unfold Map.energyIndex
  rw [if_pos (by omega)]
  exact hidx _ fun b => by simp

theorem index_lt {m : Map} (h : 2 ≤ m.energies.length) (e : ℝ) : m.energyIndex e + 1 < m.energies.length := by
  unfold Map.energyIndex
  rw [if_pos (by omega)]
  simp only
  split <;> omega

theorem flip_nonneg {y : ℝ} (h : 0 ≤ y) : flip y = y := if_neg (fun c => absurd c.1 (not_lt.2 h))

theorem checkEnergy_ok {m : Map} {e : ℝ} (h0 : 0 < m.energies.length)
    (he : m.enforce = false ∨ (m.energies[0] ≤ e ∧ e ≤ m.energies[m.energies.length - 1])) :
    m.checkEnergy e = .ok ⟨⟩ := by
  have hne : m.energies ≠ [] := List.length_pos_iff.1 h0
  unfold Map.checkEnergy
  rw [List.head?_eq_getElem?, List.getElem?_eq_getElem h0, List.getLast?_eq_getElem?, List.getElem?_eq_getElem (by omega)]
  simp only
  rw [if_neg]
  rintro ⟨h1, h2⟩
  rcases he with he | he
  · rw [he] at h1; cases h1
  · rcases h2 with h2 | h2 <;> linarith [he.1, he.2]

theorem value_eq {m : Map} {lib : Library δ} {d : δ} {e : ℝ} {y : Nat → ℝ} (h2 : 2 ≤ m.energies.length) (he : 0 ≤ e)
    (hr : m.enforce = false ∨ (m.energies[0] ≤ e ∧ e ≤ m.energies[m.energies.length - 1]))
    (hy : ∀ k < m.energies.length, m.plane lib d k = .ok (y k)) (hy0 : ∀ k < m.energies.length, 0 ≤ y k)
    {k : Nat} (hk : k + 1 < m.energies.length) (hi : m.energyIndex e = k) :
    m.value lib d e = if e = m.energies[k] then .ok (y k)
      else Wcs.powerLaw e m.energies[k] m.energies[k + 1] (y k) (y (k + 1)) := by
  unfold Map.value
  rw [vget_lt _ _ (by omega), Res.bind_ok]
  simp only
  rw [show energyUsed m.energies[0] e = e from if_neg (not_lt.2 he), checkEnergy_ok (by omega) hr, Res.bind_ok, hi,
    hy k (by omega), Res.bind_ok]
  unfold Map.between
  rw [vget_lt _ _ (by omega), Res.bind_ok]
  by_cases c : e = m.energies[k]
  · rw [if_pos c, if_pos c]
  · rw [if_neg c, if_neg c, hy _ hk, Res.bind_ok, vget_lt _ _ hk, Res.bind_ok, flip_nonneg (hy0 _ (by omega)), flip_nonneg (hy0 _ hk)]

end Verif.HpxMap
