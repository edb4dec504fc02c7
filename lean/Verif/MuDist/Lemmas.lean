import Verif.MuDist.Model
import Verif.MuDist.Spec
import Verif.TrapQuad.Props
import Verif.Energy.Lemmas
import Mathlib.Analysis.Real.Pi.Bounds
import Mathlib.Tactic.Linarith
import Mathlib.Tactic.Ring
import Mathlib.Tactic.FieldSimp
import Mathlib.Tactic.NormNum
import Mathlib.Data.List.Forall2

set_option linter.unusedSectionVars false
set_option linter.unusedSimpArgs false
set_option linter.unusedVariables false

namespace Verif.MuDist

open Vec Spec

theorem upper_some (xi : ℝ) : ∀ (l : List ℝ) (k : ℕ), upper xi l = some k →
    k < l.length ∧ xi < val l k ∧ ∀ j, j < k → val l j ≤ xi := by
  intro l
  induction l with
  | nil => intro k h; simp [upper] at h
  | cons c cs ih =>
    intro k h
    rw [upper] at h
    by_cases hc : xi < c
    · rw [if_pos hc] at h
      cases h
      exact ⟨by simp, by simpa [val] using hc, fun j hj => absurd hj (by omega)⟩
    · rw [if_neg hc] at h
      obtain ⟨k', h1, h2⟩ := Option.map_eq_some_iff.1 h
      obtain ⟨g1, g2, g3⟩ := ih k' h1
      subst h2
      refine ⟨by simp; omega, by simpa [val] using g2, ?_⟩
      intro j hj
      cases j with
      | zero => simpa [val] using not_lt.1 hc
      | succ j => simpa [val] using g3 j (by omega)

theorem upper_none (xi : ℝ) : ∀ (l : List ℝ), upper xi l = none → ∀ j, j < l.length → val l j ≤ xi := by
  intro l
  induction l with
  | nil => intro _ j hj; simp at hj
  | cons c cs ih =>
    intro h j hj
    rw [upper] at h
    by_cases hc : xi < c
    · rw [if_pos hc] at h; cases h
    · rw [if_neg hc] at h
      have h1 := Option.map_eq_none_iff.1 h
      cases j with
      | zero => simpa [val] using not_lt.1 hc
      | succ j => simpa [val] using ih h1 j (by simpa using hj)

/-- The distribution at the points of the grid. -/
noncomputable def F (erf : ℝ → ℝ) (sigma mu : ℝ) (n k : ℕ) : ℝ := dist01 erf sigma mu (grid n k)

theorem angles_length (n : ℕ) : (angles n).length = n := by simp [angles]

theorem val_angles {n k : ℕ} (h : k < n) : val (angles n) k = grid n k := by
  unfold angles
  rw [val_map_range]
  · rfl
  · exact h

theorem cdfs_length (erf : ℝ → ℝ) (sigma mu : ℝ) (n : ℕ) : (cdfs erf sigma mu (angles n)).length = n := by
  simp [cdfs, angles_length]

theorem val_cdfs (erf : ℝ → ℝ) (sigma mu : ℝ) {n k : ℕ} (h : k < n) :
    val (cdfs erf sigma mu (angles n)) k = F erf sigma mu n k := by
  unfold cdfs angles
  rw [List.map_map, val_map_range]
  · rfl
  · exact h

theorem step_pos {n : ℕ} (hn : 2 ≤ n) : 0 < Real.log (2 * Real.pi / (1 / 10000)) / ((n : ℝ) - 1) := by
  have h1 : (1 : ℝ) < 2 * Real.pi / (1 / 10000) := by
    have := Real.pi_gt_three
    rw [lt_div_iff₀ (by norm_num)]; linarith
  have h2 : (2 : ℝ) ≤ n := by exact_mod_cast hn
  exact div_pos (Real.log_pos h1) (by linarith)

theorem grid_lt {n : ℕ} (hn : 2 ≤ n) (k : ℕ) : grid n k < grid n (k + 1) := by
  unfold grid
  have := step_pos hn
  refine mul_lt_mul_of_pos_left (Real.exp_lt_exp.2 ?_) (by norm_num)
  push_cast
  nlinarith

theorem grid_pos (n k : ℕ) : 0 < grid n k := by unfold grid; positivity

theorem grid_mono {n : ℕ} (hn : 2 ≤ n) : Monotone (grid n) :=
  monotone_nat_of_le_succ (fun k => (grid_lt hn k).le)

theorem F_mono {erf : ℝ → ℝ} (he : Monotone erf) {sigma : ℝ} (hs : 0 < sigma) (mu : ℝ) {n : ℕ} (hn : 2 ≤ n) :
    Monotone (F erf sigma mu n) := by
  intro a b hab
  unfold F dist01
  have h1 : Real.log (grid n a) ≤ Real.log (grid n b) := Real.log_le_log (grid_pos n a) (grid_mono hn hab)
  have h2 : (Real.log (grid n a) - mu) / sigma / Real.sqrt 2 ≤ (Real.log (grid n b) - mu) / sigma / Real.sqrt 2 := by
    gcongr
  have := he h2
  linarith

theorem pass_ok {erf : ℝ → ℝ} (he : Monotone erf) {sigma : ℝ} (hs : 0 < sigma) (mu : ℝ) {n : ℕ} (hn : 2 ≤ n)
    (xi : ℝ) (h0 : F erf sigma mu n 0 ≤ xi) (mus : List ℝ) :
    (xi < F erf sigma mu n (n - 1) → ∃ th, Quantile n (grid n) (F erf sigma mu n) xi th ∧
        pass (angles n) (cdfs erf sigma mu (angles n)) xi mus = .ok (Real.cos th :: mus)) ∧
      (¬ xi < F erf sigma mu n (n - 1) →
        pass (angles n) (cdfs erf sigma mu (angles n)) xi mus = .ok mus) := by
  have hlen := cdfs_length erf sigma mu n
  unfold pass
  cases hu : upper xi (cdfs erf sigma mu (angles n)) with
  | none =>
    have h := upper_none xi _ hu (n - 1) (by omega)
    rw [val_cdfs erf sigma mu (by omega)] at h
    exact ⟨fun h' => absurd h' (not_lt.2 h), fun _ => rfl⟩
  | some k =>
    obtain ⟨h1, h2, h3⟩ := upper_some xi _ k hu
    rw [hlen] at h1
    rw [val_cdfs erf sigma mu h1] at h2
    refine ⟨fun _ => ?_, fun h' => ?_⟩
    · cases k with
      | zero => exact absurd h2 (not_lt.2 h0)
      | succ k =>
        have h4 := h3 k (by omega)
        rw [val_cdfs erf sigma mu (by omega)] at h4
        have hg := grid_lt hn k
        have hd : 0 < F erf sigma mu n (k + 1) - F erf sigma mu n k := by linarith
        simp only
        rw [vget_val (by omega), Res.bind_ok, vget_val (by omega), Res.bind_ok,
          vget_val (by rw [angles_length]; omega), Res.bind_ok,
          vget_val (by rw [angles_length]; omega), Res.bind_ok,
          val_cdfs erf sigma mu (by omega), val_cdfs erf sigma mu (by omega),
          val_angles (by omega), val_angles (by omega)]
        refine ⟨_, ⟨k, by omega, h4, h2, ?_, ?_, ?_⟩, rfl⟩
        · have : 0 ≤ (xi - F erf sigma mu n k) / (F erf sigma mu n (k + 1) - F erf sigma mu n k) *
              (grid n (k + 1) - grid n k) := mul_nonneg (div_nonneg (by linarith) hd.le) (by linarith)
          linarith
        · have h5 : (xi - F erf sigma mu n k) / (F erf sigma mu n (k + 1) - F erf sigma mu n k) < 1 := by
            rw [div_lt_one hd]; linarith
          nlinarith
        · field_simp
          ring
    · have := F_mono he hs mu hn (show k ≤ n - 1 by omega)
      exact absurd (lt_of_lt_of_le h2 this) h'

theorem passes_ok {erf : ℝ → ℝ} (he : Monotone erf) {sigma : ℝ} (hs : 0 < sigma) (mu : ℝ) {n : ℕ} (hn : 2 ≤ n) :
    ∀ (xis mus : List ℝ), (∀ xi ∈ xis, F erf sigma mu n 0 ≤ xi) →
    ∃ ths, List.Forall₂ (Quantile n (grid n) (F erf sigma mu n))
        (xis.filter (fun xi => @decide (xi < F erf sigma mu n (n - 1)) (Classical.propDecidable _))) ths ∧
      passes (angles n) (cdfs erf sigma mu (angles n)) xis mus = .ok ((ths.map Real.cos).reverse ++ mus) := by
  intro xis
  induction xis with
  | nil => intro mus _; exact ⟨[], by simp, by simp [passes]⟩
  | cons xi xis ih =>
    intro mus h
    obtain ⟨p1, p2⟩ := pass_ok he hs mu hn xi (h xi List.mem_cons_self) mus
    by_cases hx : xi < F erf sigma mu n (n - 1)
    · obtain ⟨th, q1, q2⟩ := p1 hx
      obtain ⟨ths, r1, r2⟩ := ih (Real.cos th :: mus) (fun x hx => h x (List.mem_cons_of_mem _ hx))
      refine ⟨th :: ths, ?_, ?_⟩
      · rw [List.filter_cons, if_pos (@decide_eq_true _ (Classical.propDecidable _) hx)]
        exact .cons q1 r1
      · rw [passes, q2, Res.bind_ok, r2]; simp
    · obtain ⟨ths, r1, r2⟩ := ih mus (fun x hx => h x (List.mem_cons_of_mem _ hx))
      refine ⟨ths, ?_, ?_⟩
      · rw [List.filter_cons, if_neg (by
          rw [@decide_eq_true_iff _ (Classical.propDecidable _)]; exact hx)]
        exact r1
      · rw [passes, p2 hx, Res.bind_ok, r2]

/-! ### The integral -/

theorem mapM_len {α β : Type} (f : α → Res β) : ∀ (l : List α) (r : List β), l.mapM f = .ok r →
    r.length = l.length := by
  intro l
  induction l with
  | nil => intro r h; rw [List.mapM_nil] at h; cases h; rfl
  | cons a l ih =>
    intro r h
    rw [List.mapM_cons] at h
    obtain ⟨b, h1, h2⟩ := Res.bind_eq_ok.1 h
    obtain ⟨bs, h3, h4⟩ := Res.bind_eq_ok.1 h2
    cases h4
    simp [ih bs h3]

/-- The integrand of a direction. -/
noncomputable def dens (v : View) (mu phi : ℝ) : ℝ :=
  open Classical in if v.inc mu phi < 90 then v.resp mu phi * v.srcDist mu phi else 0

theorem cell_ok (v : View) (mu phi : ℝ) (h : v.inc mu phi < 90 → 0 ≤ v.srcDist mu phi) :
    cell v mu phi = .ok (dens v mu phi) := by
  unfold cell dens
  by_cases hi : v.inc mu phi < 90
  · rw [if_pos hi, if_neg (not_lt.2 (h hi)), if_pos hi]
  · rw [if_neg hi, if_neg hi]

theorem compute_trap (x y : List ℝ) (hxy : x.length = y.length) (hn : 2 ≤ y.length) :
    TrapQuad.computeIntegral x y = .ok (TrapQuad.trapezoid (x.zip y)) := by
  rw [TrapQuad.trapezoid_zip hxy hn]
  exact TrapQuad.computeIntegral_ok hxy hn

theorem zip_map_self (f : ℝ → ℝ) (l : List ℝ) : l.zip (l.map f) = l.map (fun x => (x, f x)) := by
  induction l with
  | nil => rfl
  | cons a l ih => simp [ih]

theorem phiIntegral_ok (v : View) (ps : List ℝ) (mu : ℝ) (hp : 2 ≤ ps.length)
    (h : ∀ phi ∈ ps, v.inc mu phi < 90 → 0 ≤ v.srcDist mu phi) :
    phiIntegral v ps mu = .ok (TrapQuad.trapezoid (ps.map (fun phi => (phi, dens v mu phi)))) := by
  unfold phiIntegral
  rw [mapM_ok (cell v mu) (dens v mu) ps (fun phi hphi => cell_ok v mu phi (h phi hphi)), Res.bind_ok,
    compute_trap _ _ (by simp) (by simpa using hp)]
  rw [zip_map_self]

theorem trap_nonneg : ∀ (l : List (ℝ × ℝ)), (l.map (·.1)).Pairwise (· ≤ ·) → (∀ p ∈ l, 0 ≤ p.2) →
    0 ≤ TrapQuad.trapezoid l := by
  intro l
  induction l with
  | nil => intro _ _; simp [TrapQuad.trapezoid]
  | cons p l ih =>
    intro h1 h2
    cases l with
    | nil => simp [TrapQuad.trapezoid]
    | cons q l =>
      rw [TrapQuad.trapezoid]
      rw [List.map_cons, List.pairwise_cons] at h1
      have a := ih h1.2 (fun p hp => h2 p (List.mem_cons_of_mem _ hp))
      have b := h1.1 q.1 (by simp)
      have c := h2 p List.mem_cons_self
      have d := h2 q (by simp)
      have : 0 ≤ (p.2 + q.2) / 2 * (q.1 - p.1) := mul_nonneg (by linarith) (by linarith)
      linarith

theorem trap_const (c : ℝ) : ∀ (a b : ℝ) (l : List ℝ), 
    TrapQuad.trapezoid ((a :: (l ++ [b])).map (fun x => (x, c))) = c * (b - a) := by
  intro a b l
  induction l generalizing a with
  | nil => simp [TrapQuad.trapezoid]
  | cons x l ih =>
    have := ih x
    rw [List.cons_append, List.map_cons, List.map_cons, TrapQuad.trapezoid]
    rw [List.map_cons] at this
    rw [this]; ring

theorem grid_last {n : ℕ} (hn : 2 ≤ n) : grid n (n - 1) = 2 * Real.pi := by
  unfold grid
  have h2 : (2 : ℝ) ≤ n := by exact_mod_cast hn
  have h1 : ((n - 1 : ℕ) : ℝ) = (n : ℝ) - 1 := by
    rw [Nat.cast_sub (by omega)]; norm_num
  have h3 : (n : ℝ) - 1 ≠ 0 := by intro h; linarith
  rw [h1, div_mul_cancel₀ _ h3, Real.exp_log (by have := Real.pi_pos; positivity)]
  ring

theorem quantile_cos_lt {n : ℕ} (hn : 2 ≤ n) {G : ℕ → ℝ} {xi th : ℝ} (h : Quantile n (grid n) G xi th) :
    Real.cos th < 1 := by
  obtain ⟨k, h1, _, _, h4, h5, _⟩ := h
  have a : 0 < th := lt_of_lt_of_le (grid_pos n k) h4
  have b : th < 2 * Real.pi := by
    refine lt_of_lt_of_le h5 ?_
    rw [← grid_last hn]
    exact grid_mono hn (by omega)
  refine lt_of_le_of_ne (Real.cos_le_one th) (fun hc => ?_)
  have := (Real.cos_eq_one_iff_of_lt_of_lt (by have := Real.pi_pos; linarith) b).1 hc
  linarith

theorem mapM_get {α β : Type} (f : α → Res β) : ∀ (l : List α) (r : List β), l.mapM f = .ok r →
    ∀ (k : ℕ) (a : α), l[k]? = some a → ∃ b, r[k]? = some b ∧ f a = .ok b := by
  intro l
  induction l with
  | nil => intro r h k a hk; simp at hk
  | cons x l ih =>
    intro r h k a hk
    rw [List.mapM_cons] at h
    obtain ⟨b, h1, h2⟩ := Res.bind_eq_ok.1 h
    obtain ⟨bs, h3, h4⟩ := Res.bind_eq_ok.1 h2
    cases h4
    cases k with
    | zero => simp at hk; subst hk; exact ⟨b, rfl, h1⟩
    | succ k => exact ih bs h3 k a (by simpa using hk)

end Verif.MuDist
