import Verif.Wcs.Props
/-
C66: the value of a map at an energy.
-/
set_option linter.unusedSectionVars false
set_option linter.unusedSimpArgs false
set_option linter.unusedVariables false
namespace Verif.Wcs
open Verif.Wcs.Spec

/-! ### Between two energies -/

/-- All cases of the interpolation for values that are not negative. -/
theorem powerLaw_cases {x x1 x2 y1 y2 : ℝ} (h1 : 0 < x1) (h12 : x1 < x2) (hy1 : 0 ≤ y1) (hy2 : 0 ≤ y2) :
    powerLaw x x1 x2 y1 y2 =
      if y1 = 0 ∧ y2 = 0 then .ok 0
      else if y1 = 0 ∨ y2 = 0 then
        if (x < x1 ∧ y1 = 0) ∨ (x2 < x ∧ y2 = 0) then .ok 0
        else .ok ((x - x1) / (x2 - x1) * (y2 - y1) + y1)
      else .ok (y1 * (x / x1) ^ (Real.log (y2 / y1) / Real.log (x2 / x1))) := by
  unfold powerLaw
  by_cases c1 : y1 = 0 ∧ y2 = 0
  · rw [if_pos c1, if_pos c1]
  · rw [if_neg c1, if_neg c1]
    by_cases c2 : y1 = 0 ∨ y2 = 0
    · rw [if_pos c2, if_pos c2, if_neg (show ¬ (x2 - x1 = 0) by linarith)]
    · rw [if_neg c2, if_neg c2]
      simp only [not_or] at c2
      have p1 : 0 < y1 := lt_of_le_of_ne hy1 (Ne.symm c2.1)
      have p2 : 0 < y2 := lt_of_le_of_ne hy2 (Ne.symm c2.2)
      rw [if_neg (by rintro (h | h | h | h) <;> linarith)]
      have : 0 < Real.log (x2 / x1) := Real.log_pos ((one_lt_div h1).2 h12)
      rw [if_neg this.ne']

/-- The power law as an exponential. -/
theorem pow_eq {x x1 x2 y1 y2 : ℝ} (h : 0 < x) (h1 : 0 < x1) :
    y1 * (x / x1) ^ (Real.log (y2 / y1) / Real.log (x2 / x1)) =
      y1 * Real.exp (Real.log (x / x1) / Real.log (x2 / x1) * Real.log (y2 / y1)) := by
  rw [Real.rpow_def_of_pos (div_pos h h1)]
  congr 2
  ring

theorem powerLaw_nonneg {x x1 x2 y1 y2 : ℝ} (h : 0 < x) (h1 : 0 < x1) (h12 : x1 < x2) (hy1 : 0 ≤ y1) (hy2 : 0 ≤ y2) :
    ∃ v, powerLaw x x1 x2 y1 y2 = .ok v ∧ 0 ≤ v := by
  rw [powerLaw_cases h1 h12 hy1 hy2]
  split
  · exact ⟨0, rfl, le_rfl⟩
  · split
    · split
      · exact ⟨0, rfl, le_rfl⟩
      · rename_i c1 c2 c3
        refine ⟨_, rfl, ?_⟩
        simp only [not_or, not_and_or, not_lt] at c3
        have hd : 0 < x2 - x1 := by linarith
        have e : (x - x1) / (x2 - x1) * (y2 - y1) + y1 = ((x - x1) * y2 + (x2 - x) * y1) / (x2 - x1) := by
          field_simp; ring
        rw [e]
        apply div_nonneg _ hd.le
        rcases c2 with c2 | c2
        · rcases c3.1 with c | c
          · rw [c2]; nlinarith [mul_nonneg (by linarith : 0 ≤ x - x1) hy2]
          · exact absurd c2 c
        · rcases c3.2 with c | c
          · rw [c2]; nlinarith [mul_nonneg (by linarith : 0 ≤ x2 - x) hy1]
          · exact absurd c2 c
    · exact ⟨_, rfl, mul_nonneg hy1 (Real.rpow_nonneg (div_nonneg h.le h1.le) _)⟩

theorem powerLaw_left {x1 x2 y1 y2 : ℝ} (h1 : 0 < x1) (h12 : x1 < x2) (hy1 : 0 ≤ y1) (hy2 : 0 ≤ y2) :
    powerLaw x1 x1 x2 y1 y2 = .ok y1 := by
  rw [powerLaw_cases h1 h12 hy1 hy2]
  split
  · rename_i c; rw [c.1]
  · split
    · rw [if_neg (by rintro (⟨h, _⟩ | ⟨h, _⟩) <;> linarith)]
      simp
    · rw [div_self h1.ne', Real.one_rpow, mul_one]

theorem powerLaw_right {x1 x2 y1 y2 : ℝ} (h1 : 0 < x1) (h12 : x1 < x2) (hy1 : 0 ≤ y1) (hy2 : 0 ≤ y2) :
    powerLaw x2 x1 x2 y1 y2 = .ok y2 := by
  rw [powerLaw_cases h1 h12 hy1 hy2]
  split
  · rename_i c; rw [c.2]
  · split
    · rw [if_neg (by rintro (⟨h, _⟩ | ⟨h, _⟩) <;> linarith), div_self (by linarith)]
      congr 1
      ring
    · rename_i c1 c2
      simp only [not_or] at c2
      have p1 : 0 < y1 := lt_of_le_of_ne hy1 (Ne.symm c2.1)
      have p2 : 0 < y2 := lt_of_le_of_ne hy2 (Ne.symm c2.2)
      have : 0 < Real.log (x2 / x1) := Real.log_pos ((one_lt_div h1).2 h12)
      rw [pow_eq (by linarith) h1, div_self this.ne', one_mul, Real.exp_log (div_pos p2 p1)]
      congr 1
      field_simp

theorem powerLaw_between {x x1 x2 y1 y2 : ℝ} (h1 : 0 < x1) (h12 : x1 < x2) (hy1 : 0 ≤ y1) (hy2 : 0 ≤ y2)
    (hx1 : x1 ≤ x) (hx2 : x ≤ x2) : ∃ v, powerLaw x x1 x2 y1 y2 = .ok v ∧ min y1 y2 ≤ v ∧ v ≤ max y1 y2 := by
  have hx : 0 < x := by linarith
  rw [powerLaw_cases h1 h12 hy1 hy2]
  split
  · rename_i c; exact ⟨0, rfl, by rw [c.1, c.2]; simp⟩
  · split
    · rw [if_neg (by rintro (⟨h, _⟩ | ⟨h, _⟩) <;> linarith)]
      refine ⟨_, rfl, ?_⟩
      have hd : 0 < x2 - x1 := by linarith
      have t0 : 0 ≤ (x - x1) / (x2 - x1) := div_nonneg (by linarith) hd.le
      have t1 : (x - x1) / (x2 - x1) ≤ 1 := (div_le_one hd).2 (by linarith)
      generalize (x - x1) / (x2 - x1) = t at t0 t1
      have a := min_le_left y1 y2
      have b := min_le_right y1 y2
      have c := le_max_left y1 y2
      have d := le_max_right y1 y2
      have e : t * (y2 - y1) + y1 = (1 - t) * y1 + t * y2 := by ring
      rw [e]
      constructor
      · nlinarith [mul_le_mul_of_nonneg_left a (by linarith : 0 ≤ 1 - t), mul_le_mul_of_nonneg_left b t0]
      · nlinarith [mul_le_mul_of_nonneg_left c (by linarith : 0 ≤ 1 - t), mul_le_mul_of_nonneg_left d t0]
    · rename_i c1 c2
      simp only [not_or] at c2
      have p1 : 0 < y1 := lt_of_le_of_ne hy1 (Ne.symm c2.1)
      have p2 : 0 < y2 := lt_of_le_of_ne hy2 (Ne.symm c2.2)
      have hL : 0 < Real.log (x2 / x1) := Real.log_pos ((one_lt_div h1).2 h12)
      refine ⟨_, rfl, ?_⟩
      rw [pow_eq hx h1]
      have t0 : 0 ≤ Real.log (x / x1) / Real.log (x2 / x1) :=
        div_nonneg (Real.log_nonneg ((one_le_div h1).2 hx1)) hL.le
      have t1 : Real.log (x / x1) / Real.log (x2 / x1) ≤ 1 := by
        rw [div_le_one hL]
        exact Real.log_le_log (div_pos hx h1) (by gcongr)
      generalize Real.log (x / x1) / Real.log (x2 / x1) = t at t0 t1
      have hend : y1 * Real.exp (Real.log (y2 / y1)) = y2 := by
        rw [Real.exp_log (div_pos p2 p1)]
        field_simp
      rcases le_total y1 y2 with hle | hle
      · have hg : 0 ≤ Real.log (y2 / y1) := Real.log_nonneg ((one_le_div p1).2 hle)
        rw [min_eq_left hle, max_eq_right hle]
        constructor
        · have : 1 ≤ Real.exp (t * Real.log (y2 / y1)) := Real.one_le_exp (mul_nonneg t0 hg)
          nlinarith
        · calc y1 * Real.exp (t * Real.log (y2 / y1)) ≤ y1 * Real.exp (Real.log (y2 / y1)) := by
                apply mul_le_mul_of_nonneg_left _ hy1
                apply Real.exp_le_exp.2
                nlinarith
            _ = y2 := hend
      · have hg : Real.log (y2 / y1) ≤ 0 := Real.log_nonpos (div_nonneg hy2 hy1) ((div_le_one p1).2 hle)
        rw [min_eq_right hle, max_eq_left hle]
        constructor
        · calc y2 = y1 * Real.exp (Real.log (y2 / y1)) := hend.symm
            _ ≤ y1 * Real.exp (t * Real.log (y2 / y1)) := by
                apply mul_le_mul_of_nonneg_left _ hy1
                apply Real.exp_le_exp.2
                nlinarith
        · have : Real.exp (t * Real.log (y2 / y1)) ≤ 1 := Real.exp_le_one_iff.2 (mul_nonpos_of_nonneg_of_nonpos t0 hg)
          nlinarith

/-! ### The cube -/

/-- A cube: three axes, at least two increasing energies; `y` are the values of the planes at
the position. -/
structure Cube (m : Map) (p : Option (ℝ × ℝ)) (y : Nat → ℝ) : Prop where
  axes : m.naxes = 3
  two : 2 ≤ m.energies.length
  sorted : m.energies.Pairwise (· < ·)
  pos : ∀ e ∈ m.energies, 0 < e
  planes : ∀ k < m.energies.length, m.plane p k = .ok (y k)
  nonneg : ∀ k, 0 ≤ y k

variable {m : Map} {p : Option (ℝ × ℝ)} {y : Nat → ℝ}

theorem Cube.lt (h : Cube m p y) {i j : Nat} (hij : i < j) (hj : j < m.energies.length) :
    m.energies[i] < m.energies[j] := List.pairwise_iff_getElem.1 h.sorted i j (by omega) hj hij

/-- The plane below an energy. -/
theorem Cube.index (h : Cube m p y) {k : Nat} (hk : k + 1 < m.energies.length) {e : ℝ}
    (h1 : k = 0 ∨ m.energies[k] ≤ e) (h2 : k + 2 = m.energies.length ∨ e < m.energies[k + 1]) : m.energyIndex e = k := by
  have hlow : ∀ i (hi : i < m.energies.length), 1 ≤ i → i ≤ k → m.energies[i] ≤ e := by
    intro i hi h0 hik
    rcases h1 with h1 | h1
    · omega
    · rcases Nat.lt_or_ge i k with hlt | hge
      · exact ((h.lt hlt (by omega)).le).trans h1
      · have : i = k := by omega
        subst this; exact h1
  classical
  have hidx : ∀ q : ℝ → Bool, (∀ b, q b = true ↔ e < b) →
      (if m.energies.length - 2 < m.energies.findIdx q - 1 then m.energies.length - 2
        else m.energies.findIdx q - 1) = k := by
    intro q hq
    have hge : k = 0 ∨ k < m.energies.findIdx q := by
      rcases Nat.eq_zero_or_pos k with h0 | h0
      · exact Or.inl h0
      · right
        by_contra hc
        rw [not_lt] at hc
        have hl : m.energies.findIdx q < m.energies.length := by omega
        have ht := List.findIdx_getElem (w := hl)
        rw [hq] at ht
        rcases Nat.eq_zero_or_pos (m.energies.findIdx q) with hz | hz
        · have h3 := hlow 1 (by omega) le_rfl h0
          have h4 := h.lt (show 0 < 1 by omega) (by omega)
          simp only [hz] at ht
          linarith
        · have := hlow _ hl hz hc
          linarith
    rcases h2 with h2 | h2
    · split <;> omega
    · have hle : m.energies.findIdx q ≤ k + 1 := by
        by_contra hc
        have := List.not_of_lt_findIdx (show k + 1 < m.energies.findIdx q by omega)
        rw [Bool.eq_false_iff, ne_eq, hq] at this
        exact this h2
      rw [if_neg (by omega)]
      omega
  unfold Map.energyIndex
  rw [if_pos ⟨h.axes, by have := h.two; omega⟩]
  exact hidx _ fun b => by simp

theorem Cube.value_eq (h : Cube m p y) (hf : m.enforce = false) {k : Nat} (hk : k + 1 < m.energies.length) {e : ℝ}
    (he : 0 ≤ e) (hi : m.energyIndex e = k) :
    m.value p e = if e = m.energies[k] then .ok (y k)
      else powerLaw e m.energies[k] m.energies[k + 1] (y k) (y (k + 1)) := by
  have h0 : 0 < m.energies.length := by omega
  unfold Map.value
  rw [List.head?_eq_getElem?, List.getElem?_eq_getElem h0]
  simp only []
  rw [if_neg (not_lt.2 he)]
  have hc : m.checkEnergy e = .ok () := by
    unfold Map.checkEnergy
    split
    · rw [if_neg (by simp [hf])]
    · rw [if_neg (by simp [hf])]
  rw [hc, Res.bind_ok, hi, h.planes k (by omega), Res.bind_ok, List.getElem?_eq_getElem (by omega : k < m.energies.length)]
  simp only []
  by_cases c : e = m.energies[k]
  · rw [if_pos c, if_pos c]
  · rw [if_neg c, if_neg c, h.planes (k + 1) hk, Res.bind_ok, List.getElem?_eq_getElem hk]

/-- At its energies a cube has the values of its planes; a negative energy stands for the first. -/
theorem C66_tabulated (h : Cube m p y) (hf : m.enforce = false) (k : Nat) (hk : k < m.energies.length) :
    m.value p m.energies[k] = .ok (y k) := by
  have hp := h.pos _ (List.getElem_mem hk)
  have h2 := h.two
  by_cases hl : k + 1 < m.energies.length
  · rw [h.value_eq hf hl hp.le (h.index hl (Or.inr le_rfl) (Or.inr (h.lt (by omega) hl))), if_pos rfl]
  · have hk2 : m.energies.length - 2 + 1 < m.energies.length := by omega
    have hkk : m.energies.length - 2 + 1 = k := by omega
    have hlt := h.lt (show m.energies.length - 2 < m.energies.length - 2 + 1 by omega) hk2
    have e1 : m.energies[k] = m.energies[m.energies.length - 2 + 1] := by simp only [hkk]
    rw [e1, h.value_eq hf hk2 (by rw [← e1]; exact hp.le) (h.index hk2 (Or.inr hlt.le) (Or.inl (by omega))),
      if_neg hlt.ne', powerLaw_right (h.pos _ (List.getElem_mem _)) hlt (h.nonneg _) (h.nonneg _), hkk]

/-- Between two energies the value lies between those of the planes, and if these are positive
it is the power law through them. -/
theorem C66_between (h : Cube m p y) (hf : m.enforce = false) (k : Nat) (hk : k + 1 < m.energies.length) (e : ℝ)
    (h1 : m.energies[k] ≤ e) (h2 : e ≤ m.energies[k + 1]) :
    ∃ v, m.value p e = .ok v ∧ min (y k) (y (k + 1)) ≤ v ∧ v ≤ max (y k) (y (k + 1)) ∧
      (0 < y k → 0 < y (k + 1) → (Real.log v - Real.log (y k)) * (Real.log m.energies[k + 1] - Real.log m.energies[k]) =
        (Real.log (y (k + 1)) - Real.log (y k)) * (Real.log e - Real.log m.energies[k])) := by
  have hp := h.pos _ (List.getElem_mem (show k < m.energies.length by omega))
  have hp1 := h.pos _ (List.getElem_mem hk)
  have hlt := h.lt (show k < k + 1 by omega) hk
  rcases h1.eq_or_lt with he | h1'
  · refine ⟨y k, by rw [← he]; exact C66_tabulated h hf k (by omega), min_le_left _ _, le_max_left _ _, fun _ _ => ?_⟩
    rw [← he]; ring
  rcases h2.eq_or_lt with he | h2'
  · refine ⟨y (k + 1), by rw [he]; exact C66_tabulated h hf (k + 1) hk, min_le_right _ _, le_max_right _ _, fun _ _ => ?_⟩
    rw [← he]
  have hpe : 0 < e := by linarith
  rw [h.value_eq hf hk hpe.le (h.index hk (Or.inr h1) (Or.inr h2')), if_neg h1'.ne']
  obtain ⟨v, hv, a, b⟩ := powerLaw_between hp hlt (h.nonneg k) (h.nonneg (k + 1)) h1 h2
  refine ⟨v, hv, a, b, fun p1 p2 => ?_⟩
  rw [powerLaw_cases hp hlt (h.nonneg k) (h.nonneg (k + 1)), if_neg (fun c => p1.ne' c.1),
    if_neg (by rintro (c | c) <;> [exact p1.ne' c; exact p2.ne' c])] at hv
  cases hv
  have hL : 0 < Real.log (m.energies[k + 1] / m.energies[k]) := Real.log_pos ((one_lt_div hp).2 hlt)
  rw [pow_eq hpe hp, Real.log_mul p1.ne' (Real.exp_ne_zero _), Real.log_exp]
  rw [← Real.log_div hp1.ne' hp.ne', ← Real.log_div p2.ne' p1.ne', ← Real.log_div hpe.ne' hp.ne']
  field_simp
  ring

/-- At every positive energy there is a value, and it is not negative. -/
theorem C66_nonneg_partial (h : Cube m p y) (hf : m.enforce = false) (e : ℝ) (he : 0 < e) :
    ∃ v, m.value p e = .ok v ∧ 0 ≤ v := by
  have h2 := h.two
  -- the plane below
  obtain ⟨k, hk, hi⟩ : ∃ k, k + 1 < m.energies.length ∧ m.energyIndex e = k := by
    refine ⟨m.energyIndex e, ?_, rfl⟩
    unfold Map.energyIndex
    rw [if_pos ⟨h.axes, by omega⟩]
    simp only []
    split <;> omega
  rw [h.value_eq hf hk he.le hi]
  split
  · exact ⟨_, rfl, h.nonneg _⟩
  · exact powerLaw_nonneg he (h.pos _ (List.getElem_mem _)) (h.lt (by omega) hk) (h.nonneg _) (h.nonneg _)

/-- A negative energy, which is the default argument, stands for the first plane. -/
theorem C66_default (h : Cube m p y) (hf : m.enforce = false) (e : ℝ) (he : e < 0) : m.value p e = .ok (y 0) := by
  have h2 := h.two
  have h0 : 0 < m.energies.length := by omega
  have key := C66_tabulated h hf 0 h0
  have hp := h.pos _ (List.getElem_mem h0)
  have hh : m.energies.head? = some m.energies[0] := by rw [List.head?_eq_getElem?, List.getElem?_eq_getElem h0]
  rw [← key]
  unfold Map.value
  rw [hh]
  simp only []
  rw [if_pos he, if_neg (not_lt.2 hp.le)]

/-- If the range of energies is enforced, other energies are refused. -/
theorem C66_enforced (m : Map) (p : Option (ℝ × ℝ)) (e f b : ℝ) (hf : m.energies.head? = some f)
    (hb : m.energies.getLast? = some b) (hen : m.enforce = true) (he : 0 ≤ e) (ho : e < f ∨ b < e) :
    m.value p e = .throws := by
  unfold Map.value
  rw [hf]
  simp only []
  rw [if_neg (not_lt.2 he)]
  have : m.checkEnergy e = .throws := by
    unfold Map.checkEnergy
    rw [hf, hb]
    simp only []
    rw [if_pos ⟨hen, ho⟩]
  rw [this]
  rfl

/-- A map with a single plane has a value at the energy of the plane only (and at the default):
elsewhere a second plane is looked up beyond the end, or at least a second energy. -/
theorem C66_single_violates (m : Map) (p : Option (ℝ × ℝ)) (e0 v : ℝ) (hen : m.energies = [e0]) (hf : m.enforce = false)
    (hv : m.plane p 0 = .ok v) (e : ℝ) (he : 0 ≤ e) (hne : e ≠ e0) (hnt : m.plane p 1 ≠ .throws) : m.value p e = .ub := by
  unfold Map.value
  rw [hen]
  simp only [List.head?_cons]
  rw [if_neg (not_lt.2 he)]
  have hc : m.checkEnergy e = .ok () := by
    unfold Map.checkEnergy
    split
    · rw [if_neg (by simp [hf])]
    · rw [if_neg (by simp [hf])]
  have hi : m.energyIndex e = 0 := by
    unfold Map.energyIndex
    rw [if_neg (by simp [hen])]
  rw [hc, Res.bind_ok, hi, hv, Res.bind_ok]
  simp only [List.getElem?_cons_zero]
  rw [if_neg hne]
  cases h1 : m.plane p 1 with
  | ok w => rfl
  | throws => exact absurd h1 hnt
  | ub => rfl

/-- The hypotheses of the last theorem for a map of the sky with one plane, at the centre of a
pixel. -/
example : (⟨false, false, false, 2, 1, 1, [[[7]]], [100]⟩ : Map).value (some (1, 1)) 1000 = .ub := by
  have ht : (⟨false, false, false, 2, 1, 1, [[[7]]], [100]⟩ : Map).Tidy := by
    refine ⟨rfl, ?_, by simp⟩
    intro plane hpl
    simp only [List.mem_cons, List.not_mem_nil, or_false] at hpl
    subst hpl
    refine ⟨rfl, fun row hr => ?_⟩
    simp only [List.mem_cons, List.not_mem_nil, or_false] at hr
    rw [hr]; rfl
  have h1 := C65_centre_partial _ ht rfl 0 (by simp) 1 1 (by simp) (by simp)
  have h2 := C65_index_violates _ ht rfl rfl 1 1 (by simp) (by simp)
  simp only [Nat.cast_one] at h1 h2
  refine C66_single_violates _ _ 100 _ rfl rfl h1 1000 (by norm_num) (by norm_num) fun hc => ?_
  exact absurd (hc.symm.trans h2) (by simp)

/-- A cube of one pixel. -/
example : Cube ⟨false, false, false, 3, 1, 1, [[[7]], [[3]]], [100, 1000]⟩ (some (1, 1)) (fun k => if k = 0 then 7 else 3) := by
  have ht : (⟨false, false, false, 3, 1, 1, [[[7]], [[3]]], [100, 1000]⟩ : Map).Tidy := by
    refine ⟨rfl, ?_, by simp⟩
    intro plane hpl
    simp only [List.mem_cons, List.not_mem_nil, or_false] at hpl
    rcases hpl with rfl | rfl
    all_goals
      refine ⟨rfl, fun row hr => ?_⟩
      simp only [List.mem_cons, List.not_mem_nil, or_false] at hr
      rw [hr]; rfl
  refine ⟨rfl, by simp, by simp; norm_num, by simp, fun k hk => ?_, fun k => by split <;> norm_num⟩
  have h1 := C65_centre_partial _ ht rfl k hk 1 1 (by simp) (by simp)
  simp only [Nat.cast_one] at h1
  rw [h1]
  have : k = 0 ∨ k = 1 := by simp at hk; omega
  rcases this with rfl | rfl <;> simp [pixel]

end Verif.Wcs
