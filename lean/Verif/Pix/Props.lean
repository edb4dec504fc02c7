import Verif.Pix.Lemmas
import Mathlib.Analysis.SpecialFunctions.Log.Deriv
import Mathlib.Analysis.Calculus.Deriv.Basic
import Mathlib.Analysis.Calculus.Deriv.Mul
import Mathlib.Analysis.Complex.ExponentialBounds
import Mathlib.Tactic.Positivity
import Mathlib.Tactic.FieldSimp
import Mathlib.Tactic.NormNum
set_option linter.unusedSectionVars false
set_option linter.unusedSimpArgs false
set_option linter.unusedVariables false
/-
C93: the exposure from a livetime cube and the effective area for a point source.
-/
namespace Verif.Pix
open Verif Verif.Vec Real Spec

/-! ### The livetime cube -/

/-- The cube of a list of intervals. -/
def cellsOf (l : List Interval) : List Cell := l.map fun x => ⟨x.lt, x.cosTheta, x.phi⟩

/-- The weighted cube of a list of intervals. -/
noncomputable def weightedOf (l : List Interval) : List Cell := l.map fun x => ⟨x.lt * x.frac, x.cosTheta, x.phi⟩

private theorem total_sum (l : List Interval) (p q : ℝ) (A : ℝ → ℝ → ℝ) :
    p * total A (cellsOf l) + q * total A (weightedOf l) = exposure l p q A := by
  induction l with
  | nil => simp [total, cellsOf, weightedOf, exposure]
  | cons x xs ih =>
    simp only [total, cellsOf, weightedOf, exposure, List.map_cons, List.sum_cons, List.map_map] at ih ⊢
    rw [← ih]
    ring

/-- C93.  With both cubes of the same intervals, the exposure is the sum of livetime, efficiency and
effective area over the intervals; it is refused if and only if that is negative. -/
theorem C93_exposure (l : List Interval) (g : ℝ → ℝ × ℝ) (A : ℝ → ℝ → ℝ) (energy : ℝ) :
    let q : Cube := ⟨cellsOf l, some (weightedOf l), some g⟩
    (0 ≤ exposure l (g energy).1 (g energy).2 A → q.value A energy = .ok (exposure l (g energy).1 (g energy).2 A)) ∧
    (exposure l (g energy).1 (g energy).2 A < 0 → q.value A energy = .throws) := by
  intro q
  have e : q.expo A energy = exposure l (g energy).1 (g energy).2 A := total_sum l _ _ A
  refine ⟨fun h => ?_, fun h => ?_⟩
  · rw [← e] at h ⊢; exact value_ok h
  · rw [value_eq, e, if_pos h]

/-- C93.  Without efficiency the exposure is livetime times effective area, whether or not there is a
weighted cube. -/
theorem C93_plain (l : List Interval) (w : Option (List Cell)) (A : ℝ → ℝ → ℝ) (energy : ℝ)
    (h : 0 ≤ exposure l 1 0 A) : (⟨cellsOf l, w, none⟩ : Cube).value A energy = .ok (exposure l 1 0 A) := by
  have e : (⟨cellsOf l, w, none⟩ : Cube).expo A energy = exposure l 1 0 A := by
    rw [← total_sum]
    unfold Cube.expo
    simp [Cube.fac, Cube.pick]
  rw [← e] at h ⊢
  exact value_ok h

/-- The hypotheses can be met. -/
example : 0 ≤ exposure [⟨10, 0.9, 1, 0⟩, ⟨5, 0.8, 0.5, 0⟩] 1 0 (fun c _ => c) := by norm_num [exposure]

/-- C93 is violated for a file without the weighted cube: the efficiency is that of a fraction of one,
and nothing is reported. -/
theorem C93_unweighted_violates (l : List Interval) (g : ℝ → ℝ × ℝ) (A : ℝ → ℝ → ℝ) (energy : ℝ)
    (h : 0 ≤ exposure (l.map fun x => { x with frac := 1 }) (g energy).1 (g energy).2 A) :
    (⟨cellsOf l, none, some g⟩ : Cube).value A energy =
      .ok (exposure (l.map fun x => { x with frac := 1 }) (g energy).1 (g energy).2 A) := by
  have e1 : cellsOf (l.map fun x => { x with frac := 1 }) = cellsOf l := by simp [cellsOf]
  have e2 : weightedOf (l.map fun x => { x with frac := 1 }) = cellsOf l := by simp [cellsOf, weightedOf]
  have e : (⟨cellsOf l, none, some g⟩ : Cube).expo A energy =
      exposure (l.map fun x => { x with frac := 1 }) (g energy).1 (g energy).2 A := by
    rw [← total_sum, e1, e2]
    rfl
  rw [← e] at h ⊢
  exact value_ok h

/-- A case in which the difference matters: half of the time dead, efficiency proportional to the
fraction. -/
example : exposure [⟨10, 1 / 2, 1, 0⟩] 0 1 (fun _ _ => 1) = 5 ∧
    exposure (([⟨10, 1 / 2, 1, 0⟩] : List Interval).map fun x => { x with frac := 1 }) 0 1 (fun _ _ => 1) = 10 := by
  constructor <;> norm_num [exposure]

/-- Calls of one object in a row. -/
noncomputable def calls (f : ℝ → ℝ → ℝ) : List (ℝ × ℝ) → Memo → List ℝ
  | [], _ => []
  | k :: ks, c => (call f c k.1 k.2).1 :: calls f ks (call f c k.1 k.2).2

/-- C93.  What the object remembers does not show: every sequence of requests gives the values of the
function. -/
theorem C93_memo (f : ℝ → ℝ → ℝ) (ks : List (ℝ × ℝ)) : calls f ks (fun _ => none) = ks.map fun k => f k.1 k.2 := by
  have key : ∀ (ks : List (ℝ × ℝ)) (c : Memo), Holds f c → calls f ks c = ks.map fun k => f k.1 k.2 := by
    intro ks
    induction ks with
    | nil => intro c _; rfl
    | cons k ks ih =>
      intro c h
      obtain ⟨a, b⟩ := call_ok h k.1 k.2
      rw [calls, a, ih _ b, List.map_cons]
  exact key ks _ (fun _ _ h => by simp at h)

/-- C93.  The exposures of two event types add up. -/
theorem C93_additive (q : Cube) (A B : ℝ → ℝ → ℝ) (energy a b : ℝ) (ha : q.value A energy = .ok a) (hb : q.value B energy = .ok b) :
    q.value (fun x y => A x y + B x y) energy = .ok (a + b) := by
  rw [value_eq] at ha hb
  split at ha
  · simp at ha
  split at hb
  · simp at hb
  rename_i h1 h2
  simp only [Res.ok.injEq] at ha hb
  have e : q.expo (fun x y => A x y + B x y) energy = q.expo A energy + q.expo B energy := by
    unfold Cube.expo; rw [total_add, total_add]; ring
  rw [value_eq, e, ha, hb, if_neg]
  rw [ha] at h1; rw [hb] at h2
  linarith

/-- The hypotheses can be met. -/
example : ∃ (q : Cube) (A : ℝ → ℝ → ℝ), q.value A 100 = .ok 10 := by
  refine ⟨⟨cellsOf [⟨10, 1, 1, 0⟩], none, none⟩, fun _ _ => 1, ?_⟩
  have h : exposure [⟨10, 1, 1, 0⟩] 1 0 (fun _ _ => 1) = 10 := by norm_num [exposure]
  rw [C93_plain _ _ _ _ (by rw [h]; norm_num), h]

/-! ### The effective area for a point source -/

private theorem areaLoop_ok (rs : List Resp) : ∀ (vals : ℤ → Option ℝ) (acc : ℝ), (∀ r ∈ rs, 1 / 10 ≤ r.aeff) →
    (rs.map Resp.id).Nodup → (∀ r ∈ rs, vals r.id = none) →
    areaLoop false rs vals acc = .ok (max 0 (acc + (rs.map fun r => r.psf * r.aeff).sum)) := by
  induction rs with
  | nil =>
    intro vals acc _ _ _
    simp only [areaLoop, List.map_nil, List.sum_nil, add_zero]
    by_cases h : acc < 0
    · rw [if_pos h, max_eq_left h.le]
    · rw [if_neg h, max_eq_right (not_lt.1 h)]
  | cons r rs ih =>
    intro vals acc h1 h2 h3
    rw [List.map_cons, List.nodup_cons] at h2
    rw [areaLoop, if_neg (not_lt.2 (h1 r (by simp))), if_neg (by simp), h3 r (by simp)]
    rw [ih _ _ (fun r hr => h1 r (by simp [hr])) h2.2 (fun r' hr' => ?_)]
    · simp [add_assoc]
    · rw [Function.update_of_ne, h3 r' (by simp [hr'])]
      intro e
      exact h2.1 (by rw [← e]; exact List.mem_map_of_mem (f := Resp.id) hr')

/-- C93.  Where all responses have an effective area of at least 0.1, the area for a point source is the
sum of the effective areas times the fraction of the light in the region. -/
theorem C93_area (rs : List Resp) (h1 : ∀ r ∈ rs, 1 / 10 ≤ r.aeff) (hid : (rs.map Resp.id).Nodup) (hp : ∀ r ∈ rs, 0 ≤ r.psf) :
    area false rs = .ok ((rs.map fun r => r.psf * r.aeff).sum) := by
  unfold area
  rw [areaLoop_ok rs _ _ h1 hid (fun _ _ => rfl), zero_add, max_eq_right]
  apply List.sum_nonneg
  intro x hx
  obtain ⟨r, hr, rfl⟩ := List.mem_map.1 hx
  have := h1 r hr
  exact mul_nonneg (hp r hr) (by linarith)

/-- The hypotheses can be met. -/
example : ∃ rs : List Resp, rs.length = 2 ∧ (∀ r ∈ rs, 1 / 10 ≤ r.aeff) ∧ (rs.map Resp.id).Nodup ∧ ∀ r ∈ rs, 0 ≤ r.psf :=
  ⟨[⟨0, 3000, 0.9⟩, ⟨1, 2500, 0.8⟩], rfl, by simp; norm_num, by simp, by simp; norm_num⟩

/-- C93 is violated where one response has an effective area below 0.1: the area is zero, whatever the
other responses have. -/
theorem C93_small_area_violates (rs : List Resp) (h : ∃ r ∈ rs, r.aeff < 1 / 10) : area false rs = .ok 0 := by
  have key : ∀ (rs : List Resp) (vals : ℤ → Option ℝ) (acc : ℝ), (∃ r ∈ rs, r.aeff < 1 / 10) → areaLoop false rs vals acc = .ok 0 := by
    intro rs
    induction rs with
    | nil => rintro vals acc ⟨r, h, -⟩; simp at h
    | cons r rs ih =>
      rintro vals acc ⟨r', h, hr'⟩
      rw [areaLoop]
      by_cases hr : r.aeff < 1 / 10
      · rw [if_pos hr]
      · rw [if_neg hr, if_neg (by simp)]
        refine ih _ _ ⟨r', ?_, hr'⟩
        rcases List.mem_cons.1 h with rfl | h
        · exact absurd hr' hr
        · exact h
  exact key rs _ _ h

/-- A case in which it matters: 3000 cm² from the first response. -/
example : ∃ r ∈ ([⟨0, 3000, 1⟩, ⟨1, 0.05, 1⟩] : List Resp), r.aeff < 1 / 10 :=
  ⟨⟨1, 0.05, 1⟩, by simp, by norm_num⟩

/-- C93 is violated for two responses with the same number: the fraction of the first is used for
both. -/
theorem C93_same_number_violates (i : ℤ) (a1 a2 p1 p2 : ℝ) (h1 : 1 / 10 ≤ a1) (h2 : 1 / 10 ≤ a2) (hp : 0 ≤ p1) :
    area false [⟨i, a1, p1⟩, ⟨i, a2, p2⟩] = .ok (p1 * a1 + p1 * a2) := by
  unfold area
  have e : (fun _ : ℤ => (none : Option ℝ)) i = none := rfl
  rw [areaLoop, if_neg (not_lt.2 h1), if_neg (by simp), areaLoop, if_neg (not_lt.2 h2), if_neg (by simp), areaLoop]
  simp only [Function.update_self, Option.getD_some, Option.getD_none, zero_add]
  rw [if_neg (by have := mul_nonneg hp (show (0 : ℝ) ≤ a1 by linarith); have := mul_nonneg hp (show (0 : ℝ) ≤ a2 by linarith); linarith)]

/-- The hypotheses can be met. -/
example : (1 : ℝ) / 10 ≤ 3000 ∧ (1 : ℝ) / 10 ≤ 2500 ∧ (0 : ℝ) ≤ 0.9 := by norm_num

/-! ### Flux densities -/

/-- C94.  The derivative of the flux density of a point source with respect to any parameter but
"Prefactor", or with respect to "Prefactor" where it is zero, is the true one. -/
theorem C94_derivative (p : ℝ → Pt) (θ : ℝ) (name : String) (inc phi energy : ℝ) (appDir : Dir) (t : ℕ)
    (hdir : ∀ x, (p x).dir = (p θ).dir) (hresp : ∀ x, (p x).resp = (p θ).resp)
    (hd : HasDerivAt (fun x => (p x).spectrum energy) ((p θ).deriv name energy) θ)
    (hn : name ≠ "Prefactor" ∨ (p θ).prefactor = some 0) :
    ∃ d, (p θ).fluxDensityDeriv inc phi energy appDir t name = .ok d ∧
      HasDerivAt (fun x => (p x).fluxDensity inc phi energy appDir t) d θ := by
  refine ⟨(p θ).resp inc phi energy (difference appDir (p θ).dir * 180 / π) t * (p θ).deriv name energy, ?_, ?_⟩
  · unfold Pt.fluxDensityDeriv Pt.usePrefactor
    by_cases h : name = "Prefactor"
    · rcases hn with hn | hn
      · exact absurd h hn
      · rw [if_pos h, hn]; simp
    · rw [if_neg h]; rfl
  · unfold Pt.fluxDensity
    simp only [hdir, hresp]
    exact (hd.mul_const _).congr_deriv (mul_comm _ _)

/-- The hypotheses can be met: the value of a spectrum linear in a parameter. -/
example : ∃ p : ℝ → Pt, (∀ x, (p x).dir = (p 2).dir) ∧ (∀ x, (p x).resp = (p 2).resp) ∧
    HasDerivAt (fun x => (p x).spectrum 100) ((p 2).deriv "norm" 100) 2 := by
  refine ⟨fun x => ⟨(0, 0), fun e => x * e, fun _ e => e, none, fun _ _ _ _ _ => 1⟩, fun _ => rfl, fun _ => rfl, ?_⟩
  simpa using (hasDerivAt_id (2 : ℝ)).mul_const 100

private theorem diff_equator (a b : ℝ) (h : |a - b| ≤ 180) : difference (a, 0) (b, 0) * 180 / π = |a - b| := by
  have hpi := pi_pos
  unfold difference
  simp only [zero_mul, zero_div, sin_zero, cos_zero, mul_zero, zero_add, one_mul, mul_one]
  rw [← cos_abs, show |(a - b) * π / 180| = |a - b| * π / 180 by
    rw [abs_div, abs_mul, abs_of_pos hpi]; norm_num]
  rw [arccos_cos (by positivity) (by rw [div_le_iff₀ (by norm_num)]; nlinarith)]
  field_simp

/-- C94 is violated for "Prefactor": the flux density is taken at another place of the sky, the point on
the equator whose right ascension is the separation.  For a source and an event on the equator, at `a`
and `b` degrees, it is that of the separation `|‖a - b| - a|`. -/
theorem C94_prefactor_violates (p : Pt) (v a b inc phi energy : ℝ) (t : ℕ) (hp : p.prefactor = some v) (hv : v ≠ 0) (hdir : p.dir = (a, 0))
    (ha0 : 0 ≤ a) (ha : a ≤ 180) (hb0 : 0 ≤ b) (hb : b ≤ 180) :
    p.fluxDensity inc phi energy (b, 0) t = p.spectrum energy * p.resp inc phi energy |a - b| t ∧
    p.fluxDensityDeriv inc phi energy (b, 0) t "Prefactor" = .ok (p.spectrum energy * p.resp inc phi energy |(|a - b| - a)| t / v) := by
  have h1 : |b - a| ≤ 180 := by rw [abs_le]; constructor <;> linarith
  have h2 : |(|a - b| - a)| ≤ 180 := by
    have h3 : |a - b| ≤ 180 := by rw [abs_le]; constructor <;> linarith
    have := abs_nonneg (a - b)
    rw [abs_le]; constructor <;> linarith
  have e1 := diff_equator b a h1
  refine ⟨?_, ?_⟩
  · unfold Pt.fluxDensity
    rw [hdir, e1, abs_sub_comm]
  · unfold Pt.fluxDensityDeriv Pt.usePrefactor
    rw [if_pos rfl, hp]
    simp only [hv, ne_eq, not_false_eq_true, if_true, Res.bind_ok]
    unfold Pt.fluxDensity dirOfNumber
    rw [hdir, e1, abs_sub_comm b a, diff_equator _ _ h2]

/-- A case in which it matters: a source at 100 degrees, an event one degree away: the derivative is
that of 99 degrees. -/
example : |(100 : ℝ) - 101| = 1 ∧ |(|(100 : ℝ) - 101| - 100)| = 99 := by
  constructor
  · norm_num
  · rw [show |(100 : ℝ) - 101| = 1 by norm_num]; norm_num

/-- C94 for "Prefactor", only for a source at right ascension and declination zero and an event on the
equator: there the derivative is the true one if the spectrum is proportional to the parameter.  What is
missing: all other positions, see `C94_prefactor_violates`. -/
theorem C94_prefactor_partial (p : ℝ → Pt) (v b inc phi energy s0 : ℝ) (t : ℕ) (hv : v ≠ 0) (hp : (p v).prefactor = some v)
    (hdir : ∀ x, (p x).dir = (0, 0)) (hresp : ∀ x, (p x).resp = (p v).resp) (hs : ∀ x, (p x).spectrum energy = x * s0)
    (hb0 : 0 ≤ b) (hb : b ≤ 180) :
    ∃ d, (p v).fluxDensityDeriv inc phi energy (b, 0) t "Prefactor" = .ok d ∧
      HasDerivAt (fun x => (p x).fluxDensity inc phi energy (b, 0) t) d v := by
  obtain ⟨-, h2⟩ := C94_prefactor_violates (p v) v 0 b inc phi energy t hp hv (hdir v) le_rfl (by norm_num) hb0 hb
  refine ⟨_, h2, ?_⟩
  have h3 : ∀ x, (p x).fluxDensity inc phi energy (b, 0) t = x * (s0 * (p v).resp inc phi energy |0 - b| t) := by
    intro x
    unfold Pt.fluxDensity
    rw [hdir, hs, hresp, diff_equator b 0 (by rw [sub_zero, abs_of_nonneg hb0]; exact hb), abs_sub_comm]
    ring
  simp only [h3]
  refine ((hasDerivAt_id v).mul_const (s0 * (p v).resp inc phi energy |0 - b| t)).congr_deriv ?_
  rw [hs v, sub_zero (|0 - b|), abs_abs]
  field_simp

/-- The hypotheses can be met. -/
example : ∃ p : ℝ → Pt, (p 2).prefactor = some 2 ∧ (∀ x, (p x).dir = (0, 0)) ∧ (∀ x, (p x).resp = (p 2).resp) ∧
    ∀ x, (p x).spectrum 100 = x * 5 :=
  ⟨fun x => ⟨(0, 0), fun _ => x * 5, fun _ _ => 5, some x, fun _ _ _ _ _ => 1⟩, rfl, fun _ => rfl, fun _ => rfl, fun _ => rfl⟩

end Verif.Pix
