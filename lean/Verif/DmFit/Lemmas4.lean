import Verif.DmFit.Lemmas3
import Mathlib.Analysis.Calculus.Deriv.Inv
import Mathlib.Analysis.Calculus.Deriv.Mul
import Mathlib.Analysis.Calculus.Deriv.Pow
import Mathlib.Analysis.Calculus.Deriv.Add

set_option linter.unusedSimpArgs false
set_option linter.unusedVariables false

/-!
# Lemmas on the flux and its gradient
-/

namespace Verif.DmFit

open Vec Spec Filter Topology

theorem kev (e : ℝ) : e * 1e-3 = e / 1000 := by norm_num; ring

theorem value_of {mem : Mem} {f : Fn} {e y0 y1 : ℝ} (h0 : de mem f.mass.eff f.channel0 (e / 1000) = .ok y0)
    (h1 : de mem f.mass.eff f.channel1 (e / 1000) = .ok y1) (hm : f.mass.eff ≠ 0) :
    value mem f e = .ok (flux f y0 y1) := by
  unfold value
  rw [kev]
  simp only
  rw [h0, h1]
  simp only [Res.bind_ok]
  rw [decide_eq_false hm]
  simp only [Bool.false_eq_true, if_false]
  unfold flux
  congr 1
  have := Real.pi_ne_zero
  field_simp

theorem place_anti {m m' E : ℝ} (hE : 0 < E) (hm : 0 < m) (h : m < m') : place m' E < place m E := by
  unfold place
  have h1 : Real.log (E / m') < Real.log (E / m) := by
    apply Real.log_lt_log (by have := hm.trans h; positivity)
    exact div_lt_div_of_pos_left hE hm h
  have := div_lt_div_of_pos_right h1 log10_pos
  linarith

theorem chref_any (c : Int) : ∃ s < 12, chref c = (s : ℕ) + 1 := by
  by_cases h : 1 ≤ c ∧ c ≤ 12
  · obtain ⟨s, h1, h2, -⟩ := chref_ok h.1 h.2
    exact ⟨s, h1, h2⟩
  · exact ⟨3, by omega, chref_other (by omega)⟩

theorem flat_regular (c : ℝ) : Regular (flat c) := by
  refine ⟨by unfold flat; rw [List.length_replicate], fun r hr => ?_⟩
  rw [List.eq_of_mem_replicate hr, List.length_replicate]

theorem number_flat (c : ℝ) {s k : ℕ} (hs : s < 12) (hk : k < 24) (i : Int) :
    number (flat c) s k i = c := by
  unfold number flat
  rw [List.getElem?_replicate_of_lt (by omega), Option.getD_some,
    List.getElem?_replicate_of_lt (by omega), Option.getD_some]

theorem photons_const {file : Lines} {c : ℝ} {s : ℕ} {m E y : ℝ}
    (hn : ∀ k < 24, ∀ i, number file s k i = c) (h : E < m)
    (h1 : -1 ≤ place m E) (hy : Photons file s m E y) : y = c / E := by
  rcases hy with ⟨h', -⟩ | ⟨-, -, k, lo, hi, k1, k2, k3, k4, p, hp, rfl⟩
  · rcases h' with h' | h' <;> linarith
  · have hk : k + 1 < 24 := by
      obtain ⟨b, -⟩ := List.getElem?_eq_some_iff.1 k2
      simpa [masses] using b
    unfold lin
    rw [hn k (by omega), hn k (by omega), hn (k + 1) (by omega), hn (k + 1) (by omega)]
    ring

theorem photons_flat {c : ℝ} {s : ℕ} (hs : s < 12) {m E y : ℝ} (h : E < m)
    (h1 : -1 ≤ place m E) (hy : Photons (flat c) s m E y) : y = c / E :=
  photons_const (fun k hk i => number_flat c hs hk i) h h1 hy

theorem de_flat {c : ℝ} {mem : Mem} (H : Holds mem (flat c)) (ch : Int) {m E : ℝ} (hm : 2 ≤ m)
    (hm' : m < 10000) (hE : 0 < E) (h : E < m) (h1 : -1 ≤ place m E) :
    de mem m ch E = .ok (c / E) := by
  obtain ⟨s, hs, hc⟩ := chref_any ch
  obtain ⟨y, hy, hp⟩ := de_ok H hs hc hm hm' hE
  rw [hy, photons_flat hs h h1 hp]

theorem de_above {mem : Mem} (ch : Int) {m E : ℝ} (hm' : 10000 < m) :
    de mem m ch E = .ok 0 := by
  unfold de
  rw [mass_top]
  simp only [Res.bind_ok]
  rw [decide_eq_true (Or.inr hm')]
  rfl

theorem dm_flat {c : ℝ} {mem : Mem} (H : Holds mem (flat c)) (ch : Int) {m E : ℝ}
    (hm : 2 * 1.0001 ≤ m) (hm' : m * 1.0001 < 10000) (hE : 0 < E) (h : E < m / 1.0001)
    (h1 : -1 ≤ place (m * 1.0001) E) : dm mem m ch E = .ok 0 := by
  have m0 : 0 < m := by norm_num at hm ⊢; linarith
  have e1 : (1e-4 + 1 : ℝ) = 1.0001 := by norm_num
  have lt1 : m / 1.0001 < m := by rw [div_lt_iff₀ (by norm_num)]; norm_num; linarith
  have lt2 : m < m * 1.0001 := by norm_num; linarith
  have p1 := place_anti hE m0 lt2
  have p2 := place_anti hE (show 0 < m / 1.0001 by positivity) lt1
  have g1 : 2 ≤ m / 1.0001 := by rw [le_div_iff₀ (by norm_num)]; exact hm
  unfold dm
  simp only
  rw [e1, decide_eq_true h]
  simp only [if_true]
  rw [de_flat H ch (by linarith) (by linarith) hE (by linarith) (by linarith),
    de_flat H ch g1 (by linarith) hE h (by linarith),
    de_flat H ch (by linarith) hm' hE (by linarith) h1]
  simp

theorem dm_flat_top {c : ℝ} {mem : Mem} (H : Holds mem (flat c)) (ch : Int) {m E : ℝ}
    (hm : 10000 < m * 1.0001) (hm' : m < 10000) (hE : 0 < E) (h : E < m / 1.0001)
    (h1 : -1 ≤ place m E) : dm mem m ch E = .ok (-5000 / m * (c / E)) := by
  have m0 : 9000 < m := by norm_num at hm ⊢; linarith
  have e1 : (1e-4 + 1 : ℝ) = 1.0001 := by norm_num
  have lt1 : m / 1.0001 < m := by rw [div_lt_iff₀ (by norm_num)]; norm_num; linarith
  have p2 := place_anti hE (show 0 < m / 1.0001 by positivity) lt1
  have g1 : 2 ≤ m / 1.0001 := by rw [le_div_iff₀ (by norm_num)]; norm_num; linarith
  unfold dm
  simp only
  rw [e1, decide_eq_true h]
  simp only [if_true]
  rw [de_flat H ch (by linarith) (by linarith) hE (by linarith) (by linarith),
    de_flat H ch g1 (by linarith) hE h (by linarith), de_above ch hm]
  simp only [Res.bind_ok, Res.pure_eq]
  congr 1
  have : m * 1.0001 - m = m / 10000 := by norm_num; ring
  rw [this]
  have : m ≠ 0 := by linarith
  field_simp
  ring

theorem mass_grad {c : ℝ} {mem : Mem} (H : Holds mem (flat c)) (f : Fn) {e : ℝ} (he : 0 < e)
    {lo hi : ℝ} (h2 : 2 ≤ lo) (hE : e / 1000 < lo) (hhi : hi ≤ 10000)
    (h3 : lo < f.mass.eff) (h4 : f.mass.eff < hi) (h1 : -1 ≤ place hi (e / 1000)) :
    IsGrad (fun u => value mem (withValue f .mass u) e) f.mass.value
      (f.mass.scale * (f.norm.eff * f.sigmav.eff / f.mass.eff ^ 2
        * (-2 / f.mass.eff * (c / (e / 1000))) / 1000 / (8 * Real.pi))) := by
  have hx : 0 < e / 1000 := by positivity
  refine ⟨fun u => f.norm.eff * f.sigmav.eff / (8 * Real.pi) * (c / (e / 1000)) / 1000
    * ((u * f.mass.scale) ^ 2)⁻¹, ?_, ?_⟩
  · have hc : Continuous fun u : ℝ => u * f.mass.scale := by fun_prop
    have ev := (hc.tendsto f.mass.value).eventually (Ioo_mem_nhds h3 h4)
    filter_upwards [ev] with u hu
    obtain ⟨u1, u2⟩ := hu
    have hp : -1 ≤ place (u * f.mass.scale) (e / 1000) :=
      h1.trans (place_anti hx (by linarith) u2).le
    have hd : ∀ ch, de mem (withValue f .mass u).mass.eff ch (e / 1000) = .ok (c / (e / 1000)) :=
      fun ch => de_flat H ch (by show 2 ≤ u * f.mass.scale; linarith)
        (by show u * f.mass.scale < 10000; linarith) hx
        (by show e / 1000 < u * f.mass.scale; linarith) hp
    rw [value_of (hd _) (hd _) (by show u * f.mass.scale ≠ 0; linarith)]
    unfold flux
    congr 1
    show f.norm.eff * f.sigmav.eff / (8 * Real.pi * (u * f.mass.scale) ^ 2)
      * (f.bratio.eff * (c / (e / 1000)) + (1 - f.bratio.eff) * (c / (e / 1000))) / 1000 = _
    have : u * f.mass.scale ≠ 0 := by linarith
    have := Real.pi_ne_zero
    field_simp
    ring
  · have hm0 : f.mass.value * f.mass.scale ≠ 0 := by
      have : lo < f.mass.value * f.mass.scale := h3
      linarith
    have d1 : HasDerivAt (fun u : ℝ => u * f.mass.scale) f.mass.scale f.mass.value := by
      simpa using (hasDerivAt_id f.mass.value).mul_const f.mass.scale
    have d2 := (d1.fun_pow 2).fun_inv (pow_ne_zero 2 hm0)
    refine (d2.const_mul (f.norm.eff * f.sigmav.eff / (8 * Real.pi) * (c / (e / 1000)) / 1000)).congr_deriv ?_
    unfold Par.eff
    have hs : f.mass.scale ≠ 0 := right_ne_zero_of_mul hm0
    have hv : f.mass.value ≠ 0 := left_ne_zero_of_mul hm0
    have := Real.pi_ne_zero
    field_simp
    try ring

end Verif.DmFit
