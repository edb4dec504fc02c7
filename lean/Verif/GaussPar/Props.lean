import Verif.GaussPar.Model
import Verif.GaussPar.Spec
import Mathlib.Algebra.BigOperators.Intervals
import Mathlib.Tactic.Linarith
import Mathlib.Tactic.Ring
import Mathlib.Tactic.FieldSimp
import Mathlib.Tactic.NormNum
import Mathlib.Tactic.Positivity
set_option linter.unusedSimpArgs false
set_option linter.unusedVariables false
/-
C172: the parameters that stand for a response.
-/
namespace Verif.GaussPar
open Verif Spec

theorem moment_cons (k : Nat) (p q : Point) (l : List Point) : moment k (p :: q :: l) =
    (q.1 - p.1) * (p.1 ^ k * p.2 + q.1 ^ k * q.2) / 2 + moment k (q :: l) := by
  unfold moment
  have : (p :: q :: l).length - 1 = (q :: l).length - 1 + 1 := by simp
  rw [this, Finset.sum_range_succ', add_comm]
  rfl

theorem moment_one (k : Nat) (p : Point) : moment k [p] = 0 := by
  unfold moment
  simp

theorem sums_eq : ∀ (l : List Point) (p : Point) (s : Sums), sums s (p :: l) =
    ⟨s.norm + moment 0 (p :: l), s.e + moment 1 (p :: l), s.e2 + moment 2 (p :: l)⟩
  | [], p, s => by
    rw [moment_one, moment_one, moment_one, sums]
    · simp
    · intro a b c h
      cases h
  | q :: l, p, s => by
    rw [sums, sums_eq l q, moment_cons, moment_cons, moment_cons]
    unfold turn
    congr 1 <;> ring

/-- Cauchy and Schwarz for two terms. -/
theorem cs {n a q m b r : ℝ} (hn : 0 ≤ n) (hq : 0 ≤ q) (hm : 0 ≤ m) (hr : 0 ≤ r) (h1 : a ^ 2 ≤ n * q)
    (h2 : b ^ 2 ≤ m * r) : (a + b) ^ 2 ≤ (n + m) * (q + r) := by
  have h3 : (a * b) ^ 2 ≤ ((n * r + m * q) / 2) ^ 2 := by
    have e1 : (a * b) ^ 2 ≤ (n * q) * (m * r) := by
      rw [mul_pow]
      exact mul_le_mul h1 h2 (sq_nonneg b) (mul_nonneg hn hq)
    nlinarith [sq_nonneg (n * r - m * q)]
  have h4 : a * b ≤ (n * r + m * q) / 2 :=
    le_of_abs_le (abs_le_of_sq_le_sq h3 (by positivity))
  nlinarith

/-- The moments of a response that is nowhere negative. -/
theorem moments : ∀ (l : List Point) (p : Point), Ascending (p :: l) → (∀ x ∈ p :: l, 0 ≤ x.2) →
    0 ≤ moment 0 (p :: l) ∧ 0 ≤ moment 2 (p :: l) ∧
      moment 1 (p :: l) ^ 2 ≤ moment 0 (p :: l) * moment 2 (p :: l) ∧
      ∀ lo hi : ℝ, (∀ x ∈ p :: l, lo ≤ x.1 ∧ x.1 ≤ hi) →
        lo * moment 0 (p :: l) ≤ moment 1 (p :: l) ∧ moment 1 (p :: l) ≤ hi * moment 0 (p :: l)
  | [], p, _, _ => by
    rw [moment_one, moment_one, moment_one]
    simp
  | q :: l, p, ha, hp => by
    obtain ⟨i1, i2, i3, i4⟩ := moments l q ha.2 fun x hx => hp x (List.mem_cons_of_mem _ hx)
    have hd : 0 ≤ q.1 - p.1 := sub_nonneg.2 ha.1
    have p0 : 0 ≤ (q.1 - p.1) * p.2 / 2 := by
      have := hp p List.mem_cons_self
      positivity
    have q0 : 0 ≤ (q.1 - p.1) * q.2 / 2 := by
      have := hp q (List.mem_cons_of_mem _ List.mem_cons_self)
      positivity
    generalize hu : (q.1 - p.1) * p.2 / 2 = u at p0
    generalize hv : (q.1 - p.1) * q.2 / 2 = v at q0
    have e0 : moment 0 (p :: q :: l) = (u + v) + moment 0 (q :: l) := by
      rw [moment_cons, ← hu, ← hv]
      ring
    have e1 : moment 1 (p :: q :: l) = (p.1 * u + q.1 * v) + moment 1 (q :: l) := by
      rw [moment_cons, ← hu, ← hv]
      ring
    have e2 : moment 2 (p :: q :: l) = (p.1 ^ 2 * u + q.1 ^ 2 * v) + moment 2 (q :: l) := by
      rw [moment_cons, ← hu, ← hv]
      ring
    rw [e0, e1, e2]
    have f1 : 0 ≤ p.1 ^ 2 * u + q.1 ^ 2 * v := by positivity
    refine ⟨by positivity, by positivity, ?_, ?_⟩
    · refine cs (by positivity) f1 i1 i2 ?_ i3
      refine cs p0 (by positivity) q0 (by positivity) ?_ ?_
      · exact le_of_eq (by ring)
      · exact le_of_eq (by ring)
    · intro lo hi hb
      obtain ⟨g1, g2⟩ := i4 lo hi fun x hx => hb x (List.mem_cons_of_mem _ hx)
      obtain ⟨b1, b2⟩ := hb p List.mem_cons_self
      obtain ⟨b3, b4⟩ := hb q (List.mem_cons_of_mem _ List.mem_cons_self)
      have t1 := mul_le_mul_of_nonneg_right b1 p0
      have t2 := mul_le_mul_of_nonneg_right b2 p0
      have t3 := mul_le_mul_of_nonneg_right b3 q0
      have t4 := mul_le_mul_of_nonneg_right b4 q0
      constructor <;> nlinarith

/-- For a response with a positive integral at several true energies (the constructors of the present code make
none with more than one, `C172_one_energy_violates`), the parameters are its integral, its mean energy, which lies within
the energies, and its width, whose square is what it should be. -/
theorem C172_params_partial (energy : ℝ) {l : List Point} (ha : Ascending l) (hp : ∀ x ∈ l, 0 ≤ x.2)
    (hn : 0 < moment 0 l) :
    ∃ g, params energy l = .ok g ∧ g.norm = moment 0 l ∧ g.mean * moment 0 l = moment 1 l ∧
      (∀ lo hi : ℝ, (∀ x ∈ l, lo ≤ x.1 ∧ x.1 ≤ hi) → lo ≤ g.mean ∧ g.mean ≤ hi) ∧
      0 ≤ g.sigma ∧ g.sigma ^ 2 = moment 2 l / moment 0 l - g.mean ^ 2 := by
  cases l with
  | nil =>
    unfold moment at hn
    simp at hn
  | cons p l =>
    obtain ⟨_, _, m3, m4⟩ := moments l p ha hp
    have hv : 0 ≤ moment 2 (p :: l) / moment 0 (p :: l) - moment 1 (p :: l) / moment 0 (p :: l) *
        (moment 1 (p :: l) / moment 0 (p :: l)) := by
      have : moment 2 (p :: l) / moment 0 (p :: l) - moment 1 (p :: l) / moment 0 (p :: l) *
          (moment 1 (p :: l) / moment 0 (p :: l)) =
          (moment 0 (p :: l) * moment 2 (p :: l) - moment 1 (p :: l) ^ 2) / moment 0 (p :: l) ^ 2 := by
        field_simp
      rw [this]
      exact div_nonneg (sub_nonneg.2 m3) (sq_nonneg _)
    refine ⟨⟨moment 0 (p :: l), moment 1 (p :: l) / moment 0 (p :: l), Real.sqrt (moment 2 (p :: l) / moment 0 (p :: l)
      - moment 1 (p :: l) / moment 0 (p :: l) * (moment 1 (p :: l) / moment 0 (p :: l)))⟩, ?_, rfl, ?_, ?_,
      Real.sqrt_nonneg _, ?_⟩
    · unfold params
      simp only
      rw [sums_eq]
      simp only [zero_add]
      rw [if_neg (not_le.2 hn)]
    · exact div_mul_cancel₀ _ (ne_of_gt hn)
    · intro lo hi hb
      obtain ⟨g1, g2⟩ := m4 lo hi hb
      exact ⟨(le_div_iff₀ hn).2 g1, (div_le_iff₀ hn).2 g2⟩
    · simp only
      rw [Real.sq_sqrt hv, pow_two (moment 1 (p :: l) / moment 0 (p :: l))]

/-- With one true energy, which is what every event made with arguments has (Event.cxx:82-101), the parameters do not depend on the response at all: the
integral is zero, the mean is the energy of the event and the width a tenth of it. -/
theorem C172_one_energy_violates (energy : ℝ) (p : Point) :
    params energy [p] = .ok ⟨0, energy, energy / 10⟩ := by
  unfold params
  simp only
  rw [sums_eq, moment_one]
  simp

/-- Without true energies, as in an event made without arguments (Event.cxx:65-70), the loop runs out of the arrays. -/
theorem C172_no_energies_violates (energy : ℝ) : params energy [] = .ub := rfl

/-- The response made of parameters with a width: one positive value per energy, largest at the mean, the same at
both sides of it. -/
theorem C172_gauss_partial {g : Params} (es : List ℝ) (hn : 0 < g.norm) (hs : 0 < g.sigma) :
    ∃ r, gauss g es = .ok r ∧ r.length = es.length ∧ ∃ f : ℝ → ℝ, r = es.map f ∧
      f g.mean * (Real.sqrt (2 * Real.pi) * g.sigma) = g.norm ∧
      (∀ x, 0 < f x ∧ f x ≤ f g.mean) ∧ (∀ d, f (g.mean + d) = f (g.mean - d)) ∧
      ∀ x, f x = f g.mean * Real.exp (-((x - g.mean) / g.sigma) ^ 2 / 2) := by
  have hpi : 0 < Real.sqrt (2 * Real.pi) := Real.sqrt_pos.2 (by positivity)
  have hc : 0 < g.norm / Real.sqrt (2 * Real.pi) / g.sigma := by positivity
  have hx : ∀ x, -(x - g.mean) * (x - g.mean) / g.sigma / g.sigma / 2 = -((x - g.mean) / g.sigma) ^ 2 / 2 := by
    intro x
    field_simp
  have hm : g.norm / Real.sqrt (2 * Real.pi) / g.sigma *
      Real.exp (-(g.mean - g.mean) * (g.mean - g.mean) / g.sigma / g.sigma / 2) =
      g.norm / Real.sqrt (2 * Real.pi) / g.sigma := by
    simp
  refine ⟨_, by
    unfold gauss
    rw [if_neg (fun h => ne_of_gt hs h.1)], by simp, _, rfl, ?_, ?_, ?_, ?_⟩
  · rw [hm]
    field_simp
  · intro x
    refine ⟨mul_pos hc (Real.exp_pos _), ?_⟩
    rw [hm, hx]
    refine mul_le_of_le_one_right (le_of_lt hc) (Real.exp_le_one_iff.2 ?_)
    have := sq_nonneg ((x - g.mean) / g.sigma)
    linarith
  · intro d
    congr 2
    ring
  · intro x
    rw [hm, hx]

/-- A response at one energy only has no width, and cannot be made from its parameters. -/
theorem C172_narrow_violates (energy : ℝ) :
    ∃ g, params energy [(1, 0), (2, 1), (3, 0)] = .ok g ∧ g.norm = 1 ∧ g.mean = 2 ∧ g.sigma = 0 ∧
      gauss g [1, 2, 3] = .ub := by
  refine ⟨⟨1, 2, 0⟩, ?_, rfl, rfl, rfl, ?_⟩
  · unfold params
    simp only [sums, turn]
    norm_num
  · unfold gauss
    simp

example : Ascending [(100, 1), (200, 3), (400, 2)] ∧ (∀ x ∈ [((100, 1) : Point), (200, 3), (400, 2)], 0 ≤ x.2) ∧
    0 < moment 0 [(100, 1), (200, 3), (400, 2)] := by
  refine ⟨?_, ?_, ?_⟩
  · simp [Ascending]
    norm_num
  · intro x hx
    simp only [List.mem_cons, List.mem_nil_iff, or_false] at hx
    rcases hx with e | e | e <;> subst e <;> norm_num
  · rw [moment_cons, moment_cons, moment_one]
    norm_num

end Verif.GaussPar
