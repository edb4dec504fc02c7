import Mathlib.Tactic.Linarith
import Mathlib.Tactic.FieldSimp
import Mathlib.Tactic.Ring
import Mathlib.Tactic.NormNum
import Verif.PsfApp.Spec
import Verif.PsfApp.Model
set_option linter.unusedVariables false
set_option linter.unusedSimpArgs false
/-
C157: gtpsf writes the PSF at the energies and angles asked for and leaves an existing file alone
unless told otherwise.
-/
namespace Verif.PsfApp
open Spec

theorem step_eq {emin emax : ℝ} (h1 : 0 < emin) (h2 : 0 < emax) (n k : Nat) :
    emin * Real.exp (Real.log (emax / emin) / ((n : ℝ) - 1) * k) = energy emin emax n k := by
  unfold energy
  rw [Real.rpow_def_of_pos (div_pos h2 h1)]
  congr 2
  ring

/-- **C157 (energies).** For two or more energies the grid starts at the least energy, ends at the
greatest, and is equidistant on a logarithmic scale. -/
theorem C157_energies (emin emax : ℝ) (n : Nat) (h1 : 0 < emin) (h2 : 0 < emax) (hn : 2 ≤ n) :
    ∃ es, energies emin emax n = .ok es ∧ es.length = n ∧ (∀ k < n, es[k]? = some (energy emin emax n k)) ∧
      es[0]? = some emin ∧ es[n - 1]? = some emax := by
  have hk : ∀ k < n, ((List.range n).map fun i : Nat => emin * Real.exp (Real.log (emax / emin) / ((n : ℝ) - 1) * i))[k]? =
      some (energy emin emax n k) := fun k hk => by
    rw [List.getElem?_map, List.getElem?_range hk, Option.map_some, step_eq h1 h2]
  have hd : 0 < emax / emin := div_pos h2 h1
  refine ⟨(List.range n).map fun i : Nat => emin * Real.exp (Real.log (emax / emin) / ((n : ℝ) - 1) * i), ?_, by simp, hk, ?_, ?_⟩
  · unfold energies
    rw [if_neg (by push Not; exact ⟨h1.ne', by omega, hd⟩), if_neg (by omega)]
    simp
  · rw [hk 0 (by omega)]
    simp [energy]
  · rw [hk (n - 1) (by omega)]
    have hn1 : ((n : ℝ) - 1) ≠ 0 := by
      have : (2 : ℝ) ≤ n := by exact_mod_cast hn
      linarith
    unfold energy
    rw [Nat.cast_sub (by omega), Nat.cast_one, div_self hn1, Real.rpow_one, mul_div_cancel₀ _ h1.ne']

example : ∃ es, energies 100 10000 3 = .ok es ∧ es[0]? = some 100 ∧ es[2]? = some 10000 := by
  obtain ⟨es, h1, _, _, h4, h5⟩ := C157_energies 100 10000 3 (by norm_num) (by norm_num) (by norm_num)
  exact ⟨es, h1, h4, h5⟩

/-- **C157 (violation).** A single energy cannot be asked for: the step is a quotient by zero. -/
theorem C157_single_violates (p : Pars) (x : List ℝ → List ℝ) (psf : List ℝ → ℝ → ℝ → ℝ) (old : Option File)
    (h1 : p.nenergies = 1) (h2 : p.cubeNone = false) (h3 : p.irfsCaldb = false) : run p x psf old = (old, .ub) := by
  unfold run energies
  rw [h2, h3, if_pos (Or.inr (Or.inl h1))]
  rfl

example : run ⟨false, false, 100, 1000, 1, 30, 300, true⟩ (fun _ => []) (fun _ _ _ => 0) none = (none, .ub) :=
  C157_single_violates _ _ _ _ rfl rfl rfl

/-- **C157 (angles).** The angles start at zero and increase; the roots are equidistant. -/
theorem C157_angles (m : ℝ) (n : Nat) (hm : 0 < m) (h0 : 0 < n) (hn : n ≤ 46340) :
    ∃ th, thetas m n = .ok th ∧ th.length = n ∧ (∀ i < n, th[i]? = some (angle m n i)) ∧ th[0]? = some 0 ∧
      ∀ i j, i < j → angle m n i < angle m n j := by
  have hn0 : (0 : ℝ) < n := by exact_mod_cast h0
  have hk : ∀ i < n, ((List.range n).map fun i : Nat => ((i * i : Nat) : ℝ) / (((n : Int) * n : Int) : ℝ) * m)[i]? =
      some (angle m n i) := fun i hi => by
    rw [List.getElem?_map, List.getElem?_range hi, Option.map_some]
    unfold angle
    push_cast
    congr 1
    field_simp
  refine ⟨(List.range n).map fun i : Nat => ((i * i : Nat) : ℝ) / (((n : Int) * n : Int) : ℝ) * m, ?_, by simp, hk, ?_, ?_⟩
  · unfold thetas
    rw [if_neg (by omega), if_neg (by nlinarith [(by exact_mod_cast hn : (n : Int) ≤ 46340), Int.natCast_nonneg n])]
    simp
  · rw [hk 0 h0]; simp [angle]
  · intro i j hij
    unfold angle
    have hi : (i : ℝ) < j := by exact_mod_cast hij
    have h1 : (i : ℝ) / n < j / n := div_lt_div_of_pos_right hi hn0
    have h2 : (0 : ℝ) ≤ (i : ℝ) / n := div_nonneg (Nat.cast_nonneg _) hn0.le
    nlinarith [mul_pos hm (sub_pos.2 h1)]

example : ∃ th, thetas 30 300 = .ok th ∧ th[0]? = some 0 := by
  obtain ⟨th, h1, _, _, h4, _⟩ := C157_angles 30 300 (by norm_num) (by norm_num) (by norm_num)
  exact ⟨th, h1, h4⟩

/-- **C157 (violation).** The greatest angle asked for is never in the table: all angles are at most
`((n-1)/n)²` of it. -/
theorem C157_limit_violates (m : ℝ) (n : Nat) (hm : 0 < m) (h0 : 0 < n) (hn : n ≤ 46340) :
    ∃ th, thetas m n = .ok th ∧ ∀ t ∈ th, t ≤ m * (((n : ℝ) - 1) / n) ^ 2 ∧ t < m := by
  obtain ⟨th, h1, h2, h3, _⟩ := C157_angles m n hm h0 hn
  have hn0 : (0 : ℝ) < n := by exact_mod_cast h0
  refine ⟨th, h1, fun t ht => ?_⟩
  obtain ⟨i, hi, rfl⟩ := List.mem_iff_getElem.1 ht
  have e := h3 i (by omega)
  rw [List.getElem?_eq_getElem hi] at e
  rw [Option.some.inj e]
  have hi1 : (i : ℝ) ≤ n - 1 := by
    have : i + 1 ≤ n := by omega
    have : ((i + 1 : Nat) : ℝ) ≤ n := by exact_mod_cast this
    push_cast at this; linarith
  have hi0 : (0 : ℝ) ≤ i := Nat.cast_nonneg _
  have q1 : (i : ℝ) / n ≤ ((n : ℝ) - 1) / n := div_le_div_of_nonneg_right hi1 hn0.le
  have q0 : (0 : ℝ) ≤ (i : ℝ) / n := div_nonneg hi0 hn0.le
  have q2 : ((n : ℝ) - 1) / n < 1 := by rw [div_lt_one hn0]; linarith
  have s1 : ((i : ℝ) / n) ^ 2 ≤ (((n : ℝ) - 1) / n) ^ 2 := pow_le_pow_left₀ q0 q1 2
  have s2 : (((n : ℝ) - 1) / n) ^ 2 < 1 := by
    have : 0 ≤ ((n : ℝ) - 1) / n := le_trans q0 q1
    nlinarith
  unfold angle
  constructor
  · exact mul_le_mul_of_nonneg_left s1 hm.le
  · nlinarith

example : ∃ th, thetas 30 2 = .ok th ∧ ∀ t ∈ th, t ≤ 30 * (((2 : ℕ) : ℝ) - 1) ^ 2 / 4 := by
  obtain ⟨th, h1, h2⟩ := C157_limit_violates 30 2 (by norm_num) (by norm_num) (by norm_num)
  refine ⟨th, h1, fun t ht => le_trans (h2 t ht).1 (by norm_num)⟩

/-- **C157 (violation).** For more than 46340 angles the square of their number is not an `int`. -/
theorem C157_many_violates (m : ℝ) (n : Nat) (hn : 46340 < n) : thetas m n = .ub := by
  unfold thetas
  have h1 : (46341 : Int) ≤ n := by exact_mod_cast hn
  rw [if_neg (by omega), if_pos (by nlinarith)]

example : thetas 30 50000 = .ub := C157_many_violates 30 50000 (by norm_num)

theorem rows_ok (x : List ℝ) (psf : ℝ → ℝ → ℝ) (th : List ℝ) : ∀ (es : List ℝ) (k : Nat), k + es.length ≤ x.length →
    ∃ l, rows x psf th es k = .ok l ∧ l.length = es.length ∧ ∀ i e, es[i]? = some e → ∃ v, x[k + i]? = some v ∧
      l[i]? = some ⟨e, v, th.map fun t => psf e t⟩ := by
  intro es
  induction es with
  | nil => intro k _; exact ⟨[], rfl, rfl, (fun i e h => by simp at h)⟩
  | cons e es ih =>
    intro k hk
    simp only [List.length_cons] at hk
    obtain ⟨l, h1, h2, h3⟩ := ih (k + 1) (by omega)
    have hx : x[k]? = some x[k] := List.getElem?_eq_getElem (by omega)
    refine ⟨⟨e, x[k], th.map fun t => psf e t⟩ :: l, ?_, by simp [h2], ?_⟩
    · simp only [rows, hx, h1, Res.bind_ok]
    · intro i e' he
      cases i with
      | zero =>
        simp only [List.getElem?_cons_zero, Option.some.injEq] at he
        subst he
        exact ⟨x[k], hx, rfl⟩
      | succ i =>
        simp only [List.getElem?_cons_succ] at he
        obtain ⟨v, g1, g2⟩ := h3 i e' he
        exact ⟨v, by rw [← g1]; congr 1; omega, by simpa using g2⟩

/-- **C157 (table).** The file has one row for each energy, with the exposure at that energy and
the PSF at every angle, whether there was a file (and it may be replaced) or not. -/
theorem C157_table (p : Pars) (x : List ℝ → List ℝ) (psf : List ℝ → ℝ → ℝ → ℝ) (old : Option File) (n t : Nat)
    (hn : p.nenergies = n) (ht : p.ntheta = t) (hn2 : 2 ≤ n) (ht0 : 0 < t) (ht2 : t ≤ 46340) (h1 : 0 < p.emin) (h2 : 0 < p.emax)
    (hm : 0 < p.thetamax) (hc : p.cubeNone = false) (hi : p.irfsCaldb = false) (ho : old = none ∨ p.clobber = true)
    (hx : ∀ es, (x es).length = es.length) :
    ∃ f es, run p x psf old = (some f, .ok ()) ∧ energies p.emin p.emax p.nenergies = .ok es ∧
      IsTable p n t (fun k => ((x es)[k]?).getD 0) (psf es) f := by
  obtain ⟨es, e1, e2, e3, _⟩ := C157_energies p.emin p.emax n h1 h2 hn2
  obtain ⟨th, t1, t2, t3, _⟩ := C157_angles p.thetamax t hm ht0 ht2
  obtain ⟨l, l1, l2, l3⟩ := rows_ok (x es) (psf es) th es 0 (by rw [hx]; omega)
  refine ⟨⟨l, th⟩, es, ?_, by rw [hn]; exact e1, ?_⟩
  · unfold run
    rw [hc, hi, hn, ht, e1, t1]
    simp only [Bool.false_eq_true, if_false]
    unfold write
    rw [if_neg, l1]
    rintro ⟨a, b⟩
    rcases ho with ho | ho
    · rw [ho] at a; cases a
    · rw [ho] at b; cases b
  · refine ⟨by rw [← e2]; exact l2, t2, t3, fun k hk => ?_⟩
    obtain ⟨v, v1, v2⟩ := l3 k _ (e3 k hk)
    refine ⟨_, v2, rfl, ?_, by simp [t2], fun i hi => ?_⟩
    · rw [Nat.zero_add] at v1
      show v = ((x es)[k]?).getD 0
      rw [v1]; rfl
    · show (th.map fun t => psf es _ t)[i]? = _
      rw [List.getElem?_map, t3 i hi]
      rfl

example : ∃ f, run ⟨false, false, 100, 1000, 5, 30, 300, false⟩ (fun es => es.map fun _ => 1) (fun _ e t => e + t) none = (some f, .ok ()) ∧
    f.rows.length = 5 := by
  obtain ⟨f, es, h1, _, h2⟩ := C157_table ⟨false, false, 100, 1000, 5, 30, 300, false⟩ (fun es => es.map fun _ => 1) (fun _ e t => e + t)
    none 5 300 rfl rfl (by norm_num) (by norm_num) (by norm_num) (by norm_num) (by norm_num) (by norm_num) rfl rfl (Or.inl rfl) (by simp)
  exact ⟨f, h1, h2.1⟩

/-- **C157 (kept).** A file that exists is as it was unless it may be replaced, and this is not a
success. -/
theorem C157_kept (p : Pars) (x : List ℝ → List ℝ) (psf : List ℝ → ℝ → ℝ → ℝ) (f : File)
    (hc : p.clobber = false ∨ p.cubeNone = true ∨ p.irfsCaldb = true) :
    (run p x psf (some f)).1 = some f ∧ (run p x psf (some f)).2 ≠ .ok () := by
  unfold run
  split
  · exact ⟨rfl, (fun h => by cases h)⟩
  · next h1 =>
    split
    · exact ⟨rfl, (fun h => by cases h)⟩
    · next h2 =>
      have hcl : p.clobber = false := by
        rcases hc with h | h | h
        · exact h
        · exact absurd h h1
        · exact absurd h h2
      split
      · unfold write
        rw [hcl]
        exact ⟨rfl, (fun h => by cases h)⟩
      · exact ⟨rfl, (fun h => by cases h)⟩
      · exact ⟨rfl, (fun h => by cases h)⟩
      · exact ⟨rfl, (fun h => by cases h)⟩
      · exact ⟨rfl, (fun h => by cases h)⟩

example : (run ⟨false, false, 100, 1000, 5, 30, 300, false⟩ (fun _ => []) (fun _ _ _ => 0) (some ⟨[], [1]⟩)).1 = some ⟨[], [1]⟩ :=
  (C157_kept _ _ _ _ (Or.inl rfl)).1

end Verif.PsfApp
