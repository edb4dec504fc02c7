import Verif.Npred.Model
import Verif.Npred.Spec
import Verif.TrapQuad.Props
/-
Lemmas for the predicted counts.
-/
set_option linter.unusedSectionVars false
set_option linter.unusedSimpArgs false
set_option linter.unusedVariables false
namespace Verif.Npred
open Verif Verif.Vec Real Spec

theorem vat_val {l : List ℝ} {k : ℕ} (h : k < l.length) : vat l k = .ok (val l k) := by
  unfold vat; rw [getElem?_val h]

theorem vat_ge {l : List ℝ} {k : ℕ} (h : l.length ≤ k) : vat l k = .throws := by
  unfold vat; rw [List.getElem?_eq_none h]

theorem integrand_ok {E X : List ℝ} (h : E.length ≤ X.length) (S : ℝ → ℝ) :
    integrand E X S = .ok ((List.range E.length).map fun k => S (val E k) * val X k) := by
  unfold integrand
  have := loop_eq (lo := 0) (n := E.length) (body := fun k (y : List ℝ) => do
    let e ← vget E k
    let x ← vget X k
    .ok (y ++ [S e * x])) (fun k => (List.range k).map fun k => S (val E k) * val X k) (fun k _ hk => by
      rw [vget_val (by omega), Res.bind_ok, vget_val (by omega), Res.bind_ok, List.range_succ, List.map_append]
      rfl)
  rw [zero_add] at this
  exact this

theorem zip_counts {E X : List ℝ} (h : E.length = X.length) (S : ℝ → ℝ) :
    E.zip ((List.range E.length).map fun k => S (val E k) * val X k) = List.zipWith (fun e x => (e, S e * x)) E X := by
  apply List.ext_getElem
  · simp [h]
  · intro k h1 h2
    have hk : k < E.length := by simp at h1; omega
    simp [val_lt hk, val_lt (h ▸ hk : k < X.length)]

theorem npred_ok {E X : List ℝ} (h : E.length = X.length) (h2 : 2 ≤ E.length) (hp : ∀ e ∈ E, 0 < e) (S : ℝ → ℝ) :
    npred E X S = .ok (counts E X S) := by
  unfold npred
  rw [integrand_ok (by omega), Res.bind_ok, TrapQuad.C26_log_trapezoid _ _ (by simp) (by simpa using h2) hp, zip_counts h]
  rfl

section grid
variable {E : List ℝ} {e0 r : ℝ}

theorem Spec.LogGrid.row (g : LogGrid E e0 r) {k : ℕ} (h : k < E.length) : val E k = e0 * r ^ k := by
  rw [val_lt h, g.entry k h]

theorem Spec.LogGrid.rpos (g : LogGrid E e0 r) : 0 < r := by have := g.ratio; linarith

theorem Spec.LogGrid.all_pos (g : LogGrid E e0 r) : ∀ e ∈ E, 0 < e := by
  intro e he
  obtain ⟨k, hk, rfl⟩ := mem_val he
  rw [g.row hk]
  have := g.rpos
  have := g.pos
  positivity

theorem Spec.LogGrid.logr (g : LogGrid E e0 r) : 0 < log r := log_pos g.ratio

theorem Spec.LogGrid.log_row (g : LogGrid E e0 r) {k : ℕ} (h : k < E.length) : log (val E k) = log e0 + k * log r := by
  rw [g.row h, log_mul g.pos.ne' (pow_pos g.rpos k).ne', log_pow]

theorem Spec.LogGrid.front (g : LogGrid E e0 r) : vget E 0 = .ok e0 := by
  have := g.two
  rw [vget_val (by omega), g.row (by omega)]; simp

theorem Spec.LogGrid.back (g : LogGrid E e0 r) : vget E (E.length - 1) = .ok (e0 * r ^ (E.length - 1)) := by
  have := g.two
  rw [vget_val (by omega), g.row (by omega)]

theorem Spec.LogGrid.lt_back (g : LogGrid E e0 r) : e0 < e0 * r ^ (E.length - 1) := by
  have := g.two
  have h := one_lt_pow₀ g.ratio (n := E.length - 1) (by omega)
  have := g.pos
  nlinarith

theorem Spec.LogGrid.nsub (g : LogGrid E e0 r) : ((E.length - 1 : ℕ) : ℝ) = (E.length : ℝ) - 1 := by
  have := g.two
  rw [Nat.cast_sub (by omega)]; simp

theorem Spec.LogGrid.n1 (g : LogGrid E e0 r) : (0 : ℝ) < (E.length : ℝ) - 1 := by
  have : (2 : ℝ) ≤ E.length := by exact_mod_cast g.two
  linarith

theorem Spec.LogGrid.step (g : LogGrid E e0 r) : log (e0 * r ^ (E.length - 1) / e0) / ((E.length : ℝ) - 1) = log r := by
  rw [mul_div_assoc, mul_comm, div_mul_cancel₀ _ g.pos.ne', log_pow, g.nsub]
  field_simp [g.n1.ne']

end grid

theorem toSize_ok {x : ℝ} (h : -1 < x) : toSize x = .ok ⌊x⌋₊ := by
  unfold toSize; rw [if_neg (not_le.2 h), Int.floor_toNat]

section
variable {E : List ℝ} {e0 r : ℝ}

theorem point_inner (g : LogGrid E e0 r) {X : List ℝ} (hX : X.length = E.length) {L : ℝ} {i : ℕ} (hi : i + 1 < E.length)
    (hf : ⌊(L - log e0) / log r⌋₊ = i) (hm : -1 < (L - log e0) / log r) :
    point E X e0 (log r) L = .ok (logInterp (val E i) (val X i) (val E (i + 1)) (val X (i + 1)) (exp L)) := by
  unfold point
  rw [toSize_ok hm, Res.bind_ok, hf, if_neg (by omega), vat_val (by omega), Res.bind_ok, vat_val (by omega), Res.bind_ok,
    vat_val (by omega), Res.bind_ok]
  congr 1
  unfold logInterp
  rw [log_exp, g.log_row (k := i + 1) hi, g.log_row (k := i) (by omega)]
  congr 3
  push_cast
  ring

theorem point_last (g : LogGrid E e0 r) {X : List ℝ} (hX : X.length = E.length) {L : ℝ}
    (hf : ⌊(L - log e0) / log r⌋₊ = E.length - 1) (hm : -1 < (L - log e0) / log r) :
    point E X e0 (log r) L = .ok (val X (X.length - 1)) := by
  have := g.two
  unfold point
  rw [toSize_ok hm, Res.bind_ok, hf, if_pos rfl, vget_val (by omega)]

theorem point_ok (g : LogGrid E e0 r) {X : List ℝ} (hX : X.length = E.length) {L : ℝ} (h0 : log e0 ≤ L)
    (h1 : L ≤ log e0 + ((E.length : ℝ) - 1) * log r) :
    ∃ x, point E X e0 (log r) L = .ok x ∧ OnPolygon E X (exp L) x := by
  have hr := g.logr
  have h2 := g.two
  set p := (L - log e0) / log r with hp
  have p0 : 0 ≤ p := div_nonneg (by linarith) hr.le
  have p1 : p ≤ (E.length : ℝ) - 1 := by rw [hp, div_le_iff₀ hr]; linarith
  have hL : L = log e0 + p * log r := by rw [hp]; field_simp; ring
  have a := Nat.floor_le p0
  have b := Nat.lt_floor_add_one p
  have mono : ∀ {i : ℕ} (hi : i < E.length), (i : ℝ) ≤ p → val E i ≤ exp L := by
    intro i hi h
    rw [← exp_log (g.all_pos _ (val_mem hi)), g.log_row hi, exp_le_exp, hL]
    have := mul_le_mul_of_nonneg_right h hr.le
    linarith
  have mono' : ∀ {i : ℕ} (hi : i < E.length), p ≤ i → exp L ≤ val E i := by
    intro i hi h
    rw [← exp_log (g.all_pos _ (val_mem hi)), g.log_row hi, exp_le_exp, hL]
    have := mul_le_mul_of_nonneg_right h hr.le
    linarith
  have hle : ⌊p⌋₊ ≤ E.length - 1 := by
    have : (⌊p⌋₊ : ℝ) ≤ ((E.length - 1 : ℕ) : ℝ) := by rw [g.nsub]; linarith
    exact_mod_cast this
  rcases Nat.lt_or_ge ⌊p⌋₊ (E.length - 1) with hlt | hge
  · refine ⟨_, point_inner g hX (i := ⌊p⌋₊) (by omega) rfl (by linarith), ⌊p⌋₊, _, _, _, _, getElem?_val (by omega), getElem?_val (by omega),
      getElem?_val (by omega), getElem?_val (by omega), mono (by omega) a, mono' (by omega) (by push_cast; linarith), rfl⟩
  · have e : ⌊p⌋₊ = E.length - 1 := le_antisymm hle hge
    have hpe : p = ((E.length - 1 : ℕ) : ℝ) := by
      apply le_antisymm
      · rw [g.nsub]; exact p1
      · rw [← e]; exact a
    obtain ⟨m, hm⟩ : ∃ m, E.length = m + 2 := ⟨E.length - 2, by omega⟩
    have hLe : exp L = val E (m + 1) := by
      apply le_antisymm
      · exact mono' (by omega) (by rw [hpe, hm]; simp)
      · exact mono (by omega) (by rw [hpe, hm]; simp)
    refine ⟨_, point_last g hX e (by linarith), m, _, _, _, _, getElem?_val (by omega), getElem?_val (by omega),
      getElem?_val (by omega), getElem?_val (by omega), ?_, hLe.le, ?_⟩
    · exact mono (by omega) (by rw [hpe, hm]; push_cast; linarith)
    · unfold logInterp
      rw [hLe, div_self]
      · rw [hX, hm]; simp
      · rw [g.log_row (k := m + 1) (by omega), g.log_row (k := m) (by omega)]
        push_cast
        intro h
        linarith [h]

/-- The arrays of a range from the exposures at their energies. -/
theorem resample_ok (g : LogGrid E e0 r) {X : List ℝ} {lo hi : ℝ} (hlo : 0 < lo) (hhi : 0 < hi) (x : ℕ → ℝ)
    (hx : ∀ k < E.length, point E X e0 (log r) ((k : ℝ) * (log (hi / lo) / ((E.length : ℝ) - 1)) + log lo) = .ok (x k)) :
    resample E X e0 (e0 * r ^ (E.length - 1)) lo hi = .ok (logPoints lo hi E.length, (List.range E.length).map x) := by
  have h2 := g.two
  have hr := g.logr
  unfold resample
  simp only
  rw [g.step, if_neg (by rintro (h | h) <;> [omega; linarith])]
  have := loop_eq (lo := 0) (n := E.length) (body := fun k (s : List ℝ × List ℝ) => do
    let x ← point E X e0 (log r) ((k : ℝ) * (log (hi / lo) / ((E.length : ℝ) - 1)) + log lo)
    .ok (s.1 ++ [exp ((k : ℝ) * (log (hi / lo) / ((E.length : ℝ) - 1)) + log lo)], s.2 ++ [x]))
    (fun k => ((List.range k).map fun k : ℕ => lo * (hi / lo) ^ ((k : ℝ) / ((E.length : ℝ) - 1)), (List.range k).map x)) (fun k _ hk => by
      rw [hx k (by omega), Res.bind_ok]
      simp only [List.range_succ, List.map_append, List.map_cons, List.map_nil]
      congr 4
      rw [exp_add, exp_log hlo, rpow_def_of_pos (by positivity), mul_comm]
      congr 2
      ring)
  rw [zero_add] at this
  exact this

end

theorem logPoints_length (a b : ℝ) (n : ℕ) : (logPoints a b n).length = n := by simp [logPoints]

theorem logPoints_pos {a b : ℝ} (ha : 0 < a) (hb : 0 < b) (n : ℕ) : ∀ e ∈ logPoints a b n, 0 < e := by
  intro e he
  obtain ⟨k, -, rfl⟩ := List.mem_map.1 he
  positivity

/-- The counts as a sum over the segments. -/
theorem counts_sum {E X : List ℝ} (h : E.length = X.length) (h2 : 2 ≤ E.length) (S : ℝ → ℝ) :
    counts E X S = ∑ i ∈ Finset.range (E.length - 1), (val E i * (S (val E i) * val X i) +
      val E (i + 1) * (S (val E (i + 1)) * val X (i + 1))) / 2 * (log (val E (i + 1)) - log (val E i)) := by
  unfold counts
  rw [← zip_counts h, TrapQuad.logTrapezoid_zip (by simp) (by simpa using h2)]
  rw [List.length_map, List.length_range]
  apply Finset.sum_congr rfl
  intro i hi
  have hi := Finset.mem_range.1 hi
  rw [val_map_range _ (by omega), val_map_range _ (by omega)]
  try ring

end Verif.Npred
