import Verif.SkyInt.Props
import Verif.SkyInt.Spec2
import Mathlib.MeasureTheory.Integral.Prod
import Mathlib.MeasureTheory.Integral.IntervalIntegral.Basic
/-
Lemmas on the limits.
-/
set_option linter.unusedSimpArgs false
set_option linter.unusedVariables false
namespace Verif.SkyInt
open Real Spec

theorem difference_lt {u v w : V3} (hu : OnSphere u) (hv : OnSphere v) (hw : OnSphere w)
    (h : prod u v < prod u w) : difference u w < difference u v := by
  have e : ∀ t : V3, OnSphere t → (u.x - t.x) ^ 2 + (u.y - t.y) ^ 2 + (u.z - t.z) ^ 2 = 2 - 2 * prod u t := by
    intro t ht
    unfold OnSphere prod at *
    nlinarith
  have hle : ∀ t : V3, OnSphere t → -1 ≤ prod u t := by
    intro t ht
    unfold OnSphere prod at *
    nlinarith [sq_nonneg (u.x + t.x), sq_nonneg (u.y + t.y), sq_nonneg (u.z + t.z)]
  have hge : ∀ t : V3, OnSphere t → prod u t ≤ 1 := by
    intro t ht
    unfold OnSphere prod at *
    nlinarith [sq_nonneg (u.x - t.x), sq_nonneg (u.y - t.y), sq_nonneg (u.z - t.z)]
  unfold difference
  rw [e v hv, e w hw]
  have h1 : √(2 - 2 * prod u w) < √(2 - 2 * prod u v) :=
    sqrt_lt_sqrt (by linarith [hge w hw]) (by linarith)
  have h2 : √(2 - 2 * prod u v) ≤ 2 := by
    rw [sqrt_le_left (by norm_num)]
    linarith [hle v hv]
  have h3 := sqrt_nonneg (2 - 2 * prod u w)
  have := arcsin_lt_arcsin (x := √(2 - 2 * prod u w) / 2) (y := √(2 - 2 * prod u v) / 2)
    (by linarith) (by linarith) (by linarith)
  linarith

/-- What the loops keep, for the directions visited so far. -/
structure Good (dir : V3) (V : V3 → Prop) (s : MinMax) : Prop where
  close : V s.closest
  far : V s.farthest
  minEq : s.minDist = difference dir s.closest
  maxEq : s.maxDist = difference dir s.farthest
  minLe : ∀ c, V c → s.minDist ≤ difference dir c
  maxGe : ∀ c, V c → difference dir c ≤ s.maxDist

theorem Good.visit {dir : V3} {V : V3 → Prop} {s : MinMax} (h : Good dir V s) (c : V3) :
    Good dir (fun d => V d ∨ d = c) (s.visit dir c) := by
  unfold MinMax.visit
  simp only
  by_cases h1 : difference dir c < s.minDist
  · rw [if_pos h1]
    simp only
    have h2 : ¬ (difference dir c > s.maxDist) := by
      have := h.maxGe _ h.close
      rw [← h.minEq] at this
      exact not_lt.2 (h1.le.trans this)
    rw [if_neg h2]
    refine ⟨Or.inr rfl, Or.inl h.far, rfl, h.maxEq, ?_, ?_⟩
    · rintro d (hd | rfl)
      · exact h1.le.trans (h.minLe d hd)
      · exact le_rfl
    · rintro d (hd | rfl)
      · exact h.maxGe d hd
      · exact not_lt.1 h2
  · rw [if_neg h1]
    by_cases h2 : difference dir c > s.maxDist
    · rw [if_pos h2]
      refine ⟨Or.inl h.close, Or.inr rfl, h.minEq, rfl, ?_, ?_⟩
      · rintro d (hd | rfl)
        · exact h.minLe d hd
        · exact not_lt.1 h1
      · rintro d (hd | rfl)
        · exact (h.maxGe d hd).trans h2.le
        · exact le_rfl
    · rw [if_neg h2]
      refine ⟨Or.inl h.close, Or.inl h.far, h.minEq, h.maxEq, ?_, ?_⟩
      · rintro d (hd | rfl)
        · exact h.minLe d hd
        · exact not_lt.1 h1
      · rintro d (hd | rfl)
        · exact h.maxGe d hd
        · exact not_lt.1 h2

theorem Good.congr {dir : V3} {V W : V3 → Prop} {s : MinMax} (h : Good dir V s)
    (e : ∀ d, V d ↔ W d) : Good dir W s :=
  ⟨(e _).1 h.close, (e _).1 h.far, h.minEq, h.maxEq, fun c hc => h.minLe c ((e c).2 hc),
    fun c hc => h.maxGe c ((e c).2 hc)⟩

theorem Good.fold {dir : V3} (f : ℕ → V3) : ∀ (l : List ℕ) {V : V3 → Prop} {s : MinMax},
    Good dir V s → Good dir (fun d => V d ∨ ∃ i ∈ l, d = f i)
      (l.foldl (fun s i => s.visit dir (f i)) s)
  | [], V, s, h => h.congr (fun d => by simp)
  | i :: l, V, s, h => by
    rw [List.foldl_cons]
    refine (Good.fold f l (h.visit (f i))).congr (fun d => ?_)
    simp only [List.mem_cons, exists_eq_or_imp]
    tauto

/-- The border. -/
theorem minMax_good (m : SkyMap) (origin dir : V3) (h1 : 1 ≤ m.n1) (h2 : 1 ≤ m.n2) :
    Good dir (fun d => ∃ i j, Border m.n1 m.n2 i j ∧ d = m.skyDir origin i j)
      (minMaxDistPixels m origin dir) := by
  unfold minMaxDistPixels
  simp only
  have h0 : Good dir (fun d => d = m.skyDir origin 1 1)
      ⟨m.skyDir origin 1 1, difference dir (m.skyDir origin 1 1), m.skyDir origin 1 1,
        difference dir (m.skyDir origin 1 1)⟩ :=
    ⟨rfl, rfl, rfl, rfl, fun c hc => by rw [hc], fun c hc => by rw [hc]⟩
  refine ((((h0.fold (fun i => m.skyDir origin i 1) _).fold (fun j => m.skyDir origin m.n1 j) _).fold
    (fun i => m.skyDir origin i m.n2) _).fold (fun j => m.skyDir origin 1 j) _).congr (fun d => ?_)
  simp only [List.mem_range'_1]
  constructor
  · rintro ((((h | ⟨i, hi, h⟩) | ⟨j, hj, h⟩) | ⟨i, hi, h⟩) | ⟨j, hj, h⟩)
    · exact ⟨1, 1, ⟨by omega, by omega, by omega, by omega, by omega⟩, h⟩
    · exact ⟨i, 1, ⟨by omega, by omega, by omega, by omega, by omega⟩, h⟩
    · exact ⟨m.n1, j, ⟨by omega, by omega, by omega, by omega, by omega⟩, h⟩
    · exact ⟨i, m.n2, ⟨by omega, by omega, by omega, by omega, by omega⟩, h⟩
    · exact ⟨1, j, ⟨by omega, by omega, by omega, by omega, by omega⟩, h⟩
  · rintro ⟨i, j, ⟨a1, a2, a3, a4, a5⟩, h⟩
    by_cases c1 : j = 1
    · subst c1
      by_cases c2 : i = 1
      · subst c2; exact Or.inl (Or.inl (Or.inl (Or.inl h)))
      · exact Or.inl (Or.inl (Or.inl (Or.inr ⟨i, by omega, h⟩)))
    · by_cases c2 : i = m.n1
      · subst c2
        exact Or.inl (Or.inl (Or.inr ⟨j, by omega, h⟩))
      · by_cases c3 : j = m.n2
        · subst c3
          exact Or.inl (Or.inr ⟨i, by omega, h⟩)
        · have c4 : i = 1 := by omega
          subst c4
          exact Or.inr ⟨j, by omega, h⟩

theorem dot_eq (u v : V3) : u.dot v = prod u v := rfl
theorem sphere_centre (ra dec : ℝ) : sphere ra dec = centre ra dec := rfl

theorem around_dot (ra dec mu phi : ℝ) : (around ra dec mu phi).dot (sphere ra dec) = mu := by
  rw [dot_eq, sphere_centre, prod_comm', around]
  exact (coords ra dec _ _ _).1

theorem around_unit {ra dec mu : ℝ} (phi : ℝ) (h1 : -1 ≤ mu) (h2 : mu ≤ 1) :
    OnSphere (around ra dec mu phi) := by
  have hm : 0 ≤ 1 - mu ^ 2 := by nlinarith
  have hs := sin_sq_add_cos_sq phi
  unfold OnSphere around
  rw [prod_comb_comb]
  linear_combination (cos phi ^ 2 + sin phi ^ 2) * sq_sqrt hm + (1 - mu ^ 2) * hs

/-- The angle of a direction that is not near the line through the event from west to east. -/
theorem phiValue_around {ra dec mu phi : ℝ} (h1 : -1 < mu) (h2 : mu < 1) (hp1 : -π < phi)
    (hp2 : phi ≤ π) (h0 : ¬ (mu = 0 ∧ cos phi = 0))
    (hn : 0 ≤ phi ∨ (1e-8 ≤ 2 * (√(1 - mu ^ 2) * |sin phi|))) :
    phiValue mu (around ra dec mu phi) (Rot.make ra dec) = some phi := by
  have hm : 0 < 1 - mu ^ 2 := by nlinarith
  set r := √(1 - mu ^ 2) with hrdef
  have hr : 0 < r := sqrt_pos.2 hm
  have hrsq : r ^ 2 = 1 - mu ^ 2 := sq_sqrt hm.le
  have href : srcDir mu 0 (Rot.make ra dec) = some (around ra dec mu 0) :=
    srcDir_eq h1.le h2.le (by simp)
  have harg : ((around ra dec mu 0).dot (around ra dec mu phi) - mu * mu) / (1 - mu * mu) =
      cos phi := by
    have e2 : (around ra dec mu 0).dot (around ra dec mu phi) = mu * mu + r ^ 2 * cos phi := by
      rw [dot_eq, around, around, prod_comb_comb, cos_zero, sin_zero]; ring
    rw [e2, hrsq]
    have : (1 : ℝ) - mu * mu ≠ 0 := by nlinarith
    field_simp
    ring
  have hphi0 : (if cos phi ≤ -1 then π else if 1 ≤ cos phi then 0 else arccos (cos phi)) = |phi| := by
    have e : arccos (cos phi) = |phi| := by
      rw [← cos_abs, arccos_cos (abs_nonneg _) (abs_le.2 ⟨hp1.le, hp2⟩)]
    split
    · rename_i h; rw [← e, arccos_eq_pi.2 h]
    · split
      · rename_i h; rw [← e, arccos_eq_zero.2 h]
      · exact e
  have hd : srcDir mu |phi| (Rot.make ra dec) = some (around ra dec mu |phi|) :=
    srcDir_eq h1.le h2.le (by rw [cos_abs]; exact h0)
  unfold phiValue
  rw [href]
  simp only
  rw [if_neg (by intro e; nlinarith), harg, hphi0, hd]
  simp only
  by_cases hs : 0 ≤ phi
  · rw [abs_of_nonneg hs, difference_self, if_pos (by norm_num)]
  · have hs := not_le.1 hs
    have hn := hn.resolve_left (not_le.2 hs)
    rw [if_neg, abs_of_neg hs, neg_neg]
    rw [not_lt]
    have hchord : difference (around ra dec mu phi) (around ra dec mu |phi|) =
        2 * arcsin (r * |sin phi|) := by
      unfold difference
      have e : ((around ra dec mu phi).x - (around ra dec mu |phi|).x) ^ 2 +
          ((around ra dec mu phi).y - (around ra dec mu |phi|).y) ^ 2 +
          ((around ra dec mu phi).z - (around ra dec mu |phi|).z) ^ 2 = (2 * (r * |sin phi|)) ^ 2 := by
        have hnn := nn ra dec
        simp only [prod] at hnn
        rw [abs_of_neg hs]
        simp only [around, comb, cos_neg, sin_neg]
        rw [mul_pow, mul_pow, sq_abs]
        linear_combination (4 * r ^ 2 * sin phi ^ 2) * hnn
      rw [e, sqrt_sq (by positivity)]
      congr 2
      ring
    rw [hchord]
    have hle : r * |sin phi| ≤ 1 := by
      have := abs_sin_le_one phi
      have hr1 : r ≤ 1 := by nlinarith
      nlinarith [abs_nonneg (sin phi)]
    have h3 : r * |sin phi| ≤ arcsin (r * |sin phi|) := by
      have h4 := sin_le (arcsin_nonneg.2 (by positivity : 0 ≤ r * |sin phi|))
      rwa [sin_arcsin (by linarith [mul_nonneg hr.le (abs_nonneg (sin phi))]) hle] at h4
    linarith

end Verif.SkyInt
