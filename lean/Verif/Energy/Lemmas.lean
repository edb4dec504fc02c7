import Verif.Energy.Model
import Mathlib.Tactic.Linarith
import Mathlib.Tactic.Ring
import Mathlib.Tactic.FieldSimp
import Mathlib.Tactic.NormNum
set_option linter.unusedVariables false
set_option linter.unusedSimpArgs false
namespace Verif

/-- `mapM` whose body never fails. -/
theorem mapM_ok {α β : Type*} (f : α → Res β) (g : α → β) :
    ∀ l : List α, (∀ a ∈ l, f a = .ok (g a)) → l.mapM f = .ok (l.map g)
  | [], _ => by simp
  | a :: l, h => by
    rw [List.mapM_cons, h a (by simp), Res.bind_ok,
      mapM_ok f g l (fun b hb => h b (by simp [hb]))]
    simp

end Verif

namespace Verif.Energy

open Verif.Vec

/-- The `i`-th lower / upper continuation of a grid. -/
noncomputable def contLo (es : List ℝ) (i : Nat) : ℝ := val es 0 * (val es 0 / val es 1) ^ i
noncomputable def contHi (es : List ℝ) (i : Nat) : ℝ :=
  val es (es.length - 1) * (val es (es.length - 1) / val es (es.length - 2)) ^ i

theorem ten_pow_logb {x : ℝ} (h : 0 < x) : (10 : ℝ) ^ Real.logb 10 x = x :=
  Real.rpow_logb (by norm_num) (by norm_num) h

theorem ten_pow_step {x y : ℝ} (hx : 0 < x) (hy : 0 < y) (i : Nat) :
    (10 : ℝ) ^ (Real.logb 10 x + i * (Real.logb 10 x - Real.logb 10 y)) = x * (x / y) ^ i := by
  have h10 : (0 : ℝ) < 10 := by norm_num
  rw [Real.rpow_add h10, ten_pow_logb hx, mul_comm (i : ℝ), Real.rpow_mul h10.le,
    Real.rpow_sub h10, ten_pow_logb hx, ten_pow_logb hy, Real.rpow_natCast]

theorem val_pad (es : List ℝ) (b k : Nat) :
    val (List.replicate b 0 ++ es ++ List.replicate b 0) (b + k) = val es k := by
  unfold val
  rw [List.append_assoc, List.getElem?_append_right (by simp)]
  simp only [List.length_replicate, Nat.add_sub_cancel_left]
  by_cases h : k < es.length
  · rw [List.getElem?_append_left h]
  · rw [List.getElem?_append_right (by omega), List.getElem?_eq_none (l := es) (by omega)]
    by_cases h2 : k - es.length < b
    · simp [List.getElem?_replicate, h2]
    · simp [List.getElem?_replicate, h2]

/-- What `expand_energies` computes. -/
theorem expand_ok {es : List ℝ} {b : Nat} (hlen : 2 ≤ es.length) (hpos : ∀ e ∈ es, 0 < e) :
    ∃ out, expandEnergies es b = .ok out ∧ out.length = es.length + 2 * b ∧
      (∀ k < es.length, val out (b + k) = val es k) ∧
      (∀ i, 1 ≤ i → i ≤ b → val out (b - i) = contLo es i) ∧
      (∀ i, 1 ≤ i → i ≤ b → val out (es.length + b + i - 1) = contHi es i) := by
  have hp : ∀ k < es.length, 0 < val es k := fun k hk => hpos _ (val_mem hk)
  set n := es.length with hn
  obtain ⟨s', h1, h2, h3, h4, h5, h6, h7⟩ := loop_inv (lo := 1) (n := b)
    (body := fun i (s : List ℝ × ℝ × ℝ) => do
      let (out, lo, hi) := s
      let lo := lo + (Real.logb 10 (val es 0) - Real.logb 10 (val es 1))
      let hi := hi + (Real.logb 10 (val es (n - 1)) - Real.logb 10 (val es (n - 2)))
      let out ← vset out (b - i) ((10 : ℝ) ^ lo)
      let out ← vset out (n + b + i - 1) ((10 : ℝ) ^ hi)
      Res.ok (out, lo, hi))
    (s := (List.replicate b 0 ++ es ++ List.replicate b 0, Real.logb 10 (val es 0),
      Real.logb 10 (val es (n - 1))))
    (fun i s => s.1.length = n + 2 * b ∧
      s.2.1 = Real.logb 10 (val es 0) +
        ((i - 1 : Nat) : ℝ) * (Real.logb 10 (val es 0) - Real.logb 10 (val es 1)) ∧
      s.2.2 = Real.logb 10 (val es (n - 1)) +
        ((i - 1 : Nat) : ℝ) * (Real.logb 10 (val es (n - 1)) - Real.logb 10 (val es (n - 2))) ∧
      (∀ k < n, val s.1 (b + k) = val es k) ∧
      (∀ j, 1 ≤ j → j < i → val s.1 (b - j) = contLo es j) ∧
      (∀ j, 1 ≤ j → j < i → val s.1 (n + b + j - 1) = contHi es j))
    ⟨by simp only [List.length_append, List.length_replicate]; omega, by simp, by simp,
      fun k _ => val_pad es b k, fun j _ _ => by omega, fun j _ _ => by omega⟩
    (by
      rintro i ⟨out, lo, hi⟩ hi1 hi2 ⟨hl, hlo, hhi, hmid, hL, hH⟩
      simp only at hl hlo hhi hmid hL hH
      have hlo' : lo + (Real.logb 10 (val es 0) - Real.logb 10 (val es 1)) =
          Real.logb 10 (val es 0) +
            (i : ℝ) * (Real.logb 10 (val es 0) - Real.logb 10 (val es 1)) := by
        rw [hlo, Nat.cast_sub hi1]; push_cast; ring
      have hhi' : hi + (Real.logb 10 (val es (n - 1)) - Real.logb 10 (val es (n - 2))) =
          Real.logb 10 (val es (n - 1)) +
            (i : ℝ) * (Real.logb 10 (val es (n - 1)) - Real.logb 10 (val es (n - 2))) := by
        rw [hhi, Nat.cast_sub hi1]; push_cast; ring
      refine ⟨(((out.set (b - i) (contLo es i)).set (n + b + i - 1) (contHi es i)),
        _, _), ?_, ?_, hlo', hhi', ?_, ?_, ?_⟩
      · simp only
        rw [hlo', hhi', ten_pow_step (hp 0 (by omega)) (hp 1 (by omega)),
          ten_pow_step (hp (n - 1) (by omega)) (hp (n - 2) (by omega)),
          vset_lt _ _ _ (by omega), Res.bind_ok, vset_lt _ _ _ (by simp; omega), Res.bind_ok]
        rfl
      · simp [hl]
      · intro k hk
        rw [val_set (by simp; omega), if_neg (by omega), val_set (by omega), if_neg (by omega)]
        exact hmid k hk
      · intro j hj hj'
        rw [val_set (by simp; omega), if_neg (by omega), val_set (by omega)]
        by_cases h : j = i
        · rw [if_pos (by omega), h]
        · rw [if_neg (by omega)]; exact hL j hj (by omega)
      · intro j hj hj'
        rw [val_set (by simp; omega)]
        by_cases h : j = i
        · rw [if_pos (by omega), h]
        · rw [if_neg (by omega), val_set (by omega), if_neg (by omega)]
          exact hH j hj (by omega))
  refine ⟨s'.1, ?_, h2, h5, fun i a b' => h6 i a (by omega), fun i a b' => h7 i a (by omega)⟩
  unfold expandEnergies expandLoop
  simp only [← hn]
  rw [if_neg (by omega), vget_val (by omega), Res.bind_ok, vget_val (by omega), Res.bind_ok,
    vget_val (by omega), Res.bind_ok, vget_val (by omega), Res.bind_ok, h1, Res.bind_ok]

theorem logRatios_ok {es : List ℝ} (h : es ≠ []) :
    logEnergyRatios es = .ok ((List.range (es.length - 1)).map
      (fun i => Real.log (val es (i + 1) / val es i))) := by
  unfold logEnergyRatios
  rw [if_neg (by simpa using h)]
  apply mapM_ok
  intro i hi
  rw [List.mem_range] at hi
  rw [vget_val (by omega), Res.bind_ok, vget_val (by omega), Res.bind_ok]

theorem spectralWeights_ok {spec es ratios : List ℝ} (hs : spec.length = es.length)
    (hr : ratios.length + 1 = es.length) :
    spectralWeights spec es ratios = .ok ((List.range ratios.length).map
      (fun i => (val spec i * val es i * val ratios i / 2,
        val spec (i + 1) * val es (i + 1) * val ratios i / 2))) := by
  apply mapM_ok
  intro i hi
  rw [List.mem_range] at hi
  rw [vget_val (by omega), Res.bind_ok, vget_val (by omega), Res.bind_ok,
    vget_val (by omega), Res.bind_ok, vget_val (by omega), Res.bind_ok,
    vget_val (by omega), Res.bind_ok]

end Verif.Energy
