import Verif.Spectra.Lemmas
set_option linter.unusedSimpArgs false
set_option linter.unusedVariables false
set_option linter.unnecessarySeqFocus false
/-
C50: the derivatives of the spectral functions.
-/
namespace Verif.Spectra

theorem C50_logParabola {p : Pars} {x : ℝ} (hx : 0 < x) (hE : 0 < (p 3).tv) {i : Nat} (hi : i < 4) :
    ∃ d, LogParabola.deriv p i x = .ok d ∧ Partial (fun q => LogParabola.value q x) p i d := by
  have hpos : 0 < x / (p 3).tv := div_pos hx hE
  obtain rfl | rfl | rfl | rfl : i = 0 ∨ i = 1 ∨ i = 2 ∨ i = 3 := by omega
  · exact ⟨_, rfl, partial_of (g := fun a => a * (x / (p 3).tv) ^ (-((p 1).tv + (p 2).tv * Real.log (x / (p 3).tv))))
      (fun t => rfl) ((idd _).mul_const _) (by ring)⟩
  · exact ⟨_, rfl, partial_of (g := fun a => (p 0).tv * (x / (p 3).tv) ^ (-(a + (p 2).tv * Real.log (x / (p 3).tv))))
      (fun t => rfl) ((cpow hpos ((idd _).add_const _).fun_neg).const_mul _) (by ring)⟩
  · exact ⟨_, rfl, partial_of (g := fun a => (p 0).tv * (x / (p 3).tv) ^ (-((p 1).tv + a * Real.log (x / (p 3).tv))))
      (fun t => rfl) ((cpow hpos (((idd _).mul_const _).const_add _).fun_neg).const_mul _) (by ring)⟩
  · have h0 := cdiv x (idd (p 3).tv) hE.ne'
    refine ⟨_, rfl, partial_of (g := fun a => (p 0).tv * (x / a) ^ (-((p 1).tv + (p 2).tv * Real.log (x / a))))
      (fun t => rfl) ((pw h0 (((lg h0 hpos).const_mul _).const_add _).fun_neg hpos).const_mul _) ?_⟩
    simp only [LogParabola.value]
    field_simp
    ring

example : ∃ d, LogParabola.deriv (fun i => ⟨[3, 2, 1, 100].getD i 0, 2⟩) 3 500 = .ok d ∧
    Partial (fun q => LogParabola.value q 500) (fun i => ⟨[3, 2, 1, 100].getD i 0, 2⟩) 3 d :=
  C50_logParabola (by norm_num) (by norm_num [P.tv]) (by norm_num)

theorem C50_expCutoff {p : Pars} {x : ℝ} (hx : 0 < x) (hN : (p 0).tv ≠ 0) (hS : 0 < (p 2).tv) (hE : 0 < (p 3).tv)
    (h1 : (p 4).tv ≠ 0) {i : Nat} (hi : i < 7) (hb : i = 3 → x ≠ (p 3).tv) :
    ∃ d, ExpCutoff.deriv p i x = .ok d ∧ Partial (fun q => ExpCutoff.value q x) p i d := by
  have hpos : 0 < x / (p 2).tv := div_pos hx hS
  have hpe : 0 < x / (p 3).tv := div_pos hx hE
  by_cases hlt : x < (p 3).tv
  · have hval : ExpCutoff.value p x = (p 0).tv * (x / (p 2).tv) ^ (p 1).tv := if_pos hlt
    obtain rfl | rfl | rfl | rfl | hi : i = 0 ∨ i = 1 ∨ i = 2 ∨ i = 3 ∨ 4 ≤ i := by omega
    · exact ⟨_, rfl, partial_norm ((x / (p 2).tv) ^ (p 1).tv) (fun t => if_pos hlt) hN rfl⟩
    · exact ⟨_, rfl, partial_of (g := fun a => (p 0).tv * (x / (p 2).tv) ^ a) (fun t => if_pos hlt)
        ((cpow hpos (idd _)).const_mul _) (by rw [hval]; ring)⟩
    · exact ⟨_, rfl, partial_of (g := fun a => (p 0).tv * (x / a) ^ (p 1).tv) (fun t => if_pos hlt)
        ((powc _ (cdiv x (idd _) hS.ne') hpos).const_mul _) (by rw [hval]; field_simp)⟩
    · refine ⟨_, if_pos hlt, partial_zero' ((p 0).tv * (x / (p 2).tv) ^ (p 1).tv) ?_⟩
      filter_upwards [ev_lt (hasDerivAt_const (p 3).value x) (lin (p 3).scale (p 3).value) hlt] with t ht
      exact if_pos ht
    · obtain rfl | rfl | rfl : i = 4 ∨ i = 5 ∨ i = 6 := by omega
      all_goals exact ⟨_, if_pos hlt, partial_zero fun t => by
        simp only [hval]; exact if_pos hlt⟩
  · have hval : ExpCutoff.value p x = _ := if_neg hlt
    have hle : (p 3).tv ≤ x := not_lt.mp hlt
    obtain rfl | rfl | rfl | rfl | rfl | rfl | rfl : i = 0 ∨ i = 1 ∨ i = 2 ∨ i = 3 ∨ i = 4 ∨ i = 5 ∨ i = 6 := by omega
    · exact ⟨_, rfl, partial_norm ((x / (p 2).tv) ^ (p 1).tv * Real.exp (-((x - (p 3).tv) / (p 4).tv +
        (p 5).tv * Real.log (x / (p 3).tv) + (p 6).tv * Real.log (x / (p 3).tv) * Real.log (x / (p 3).tv))))
        (fun t => (if_neg hlt).trans (by simp only [setv, Function.update, P.tv]; simp; ring)) hN rfl⟩
    · exact ⟨_, rfl, partial_of (g := fun a => (p 0).tv * (x / (p 2).tv) ^ a * Real.exp (-((x - (p 3).tv) / (p 4).tv +
        (p 5).tv * Real.log (x / (p 3).tv) + (p 6).tv * Real.log (x / (p 3).tv) * Real.log (x / (p 3).tv))))
        (fun t => if_neg hlt) (((cpow hpos (idd _)).const_mul _).mul_const _) (by rw [hval]; ring)⟩
    · exact ⟨_, rfl, partial_of (g := fun a => (p 0).tv * (x / a) ^ (p 1).tv * Real.exp (-((x - (p 3).tv) / (p 4).tv +
        (p 5).tv * Real.log (x / (p 3).tv) + (p 6).tv * Real.log (x / (p 3).tv) * Real.log (x / (p 3).tv))))
        (fun t => if_neg hlt) (((powc _ (cdiv x (idd _) hS.ne') hpos).const_mul _).mul_const _)
        (by rw [hval]; field_simp)⟩
    · have hlt' : (p 3).tv < x := lt_of_le_of_ne hle (hb rfl).symm
      have h0 := lg (cdiv x (idd (p 3).tv) hE.ne') hpe
      refine ⟨_, if_neg hlt, ?_⟩
      have key : HasDerivAt (fun a => (p 0).tv * (x / (p 2).tv) ^ (p 1).tv * Real.exp (-((x - a) / (p 4).tv +
          (p 5).tv * Real.log (x / a) + (p 6).tv * Real.log (x / a) * Real.log (x / a)))) _ (p 3).tv :=
        (ex (((((idd _).const_sub x).div_const (p 4).tv).fun_add (h0.const_mul (p 5).tv)).fun_add
          ((h0.const_mul (p 6).tv).fun_mul h0)).fun_neg).const_mul ((p 0).tv * (x / (p 2).tv) ^ (p 1).tv)
      refine partial_of (g := fun a => if x < a then (p 0).tv * (x / (p 2).tv) ^ (p 1).tv else
          (p 0).tv * (x / (p 2).tv) ^ (p 1).tv * Real.exp (-((x - a) / (p 4).tv +
          (p 5).tv * Real.log (x / a) + (p 6).tv * Real.log (x / a) * Real.log (x / a))))
        (fun t => rfl) (key.congr_of_eventuallyEq ?_) (by rw [hval]; field_simp; ring)
      filter_upwards [ev_lt (idd (p 3).tv) (hasDerivAt_const _ x) hlt'] with t ht
      exact if_neg ht.le.not_gt
    · exact ⟨_, if_neg hlt, partial_of (g := fun a => (p 0).tv * (x / (p 2).tv) ^ (p 1).tv *
        Real.exp (-((x - (p 3).tv) / a + (p 5).tv * Real.log (x / (p 3).tv) +
          (p 6).tv * Real.log (x / (p 3).tv) * Real.log (x / (p 3).tv))))
        (fun t => if_neg hlt) ((ex (((cdiv _ (idd _) h1).add_const _).add_const _).fun_neg).const_mul _)
        (by rw [hval]; field_simp)⟩
    · exact ⟨_, if_neg hlt, partial_of (g := fun a => (p 0).tv * (x / (p 2).tv) ^ (p 1).tv *
        Real.exp (-((x - (p 3).tv) / (p 4).tv + a * Real.log (x / (p 3).tv) +
          (p 6).tv * Real.log (x / (p 3).tv) * Real.log (x / (p 3).tv))))
        (fun t => if_neg hlt) ((ex ((((idd _).mul_const _).const_add _).add_const _).fun_neg).const_mul _)
        (by rw [hval]; ring)⟩
    · exact ⟨_, if_neg hlt, partial_of (g := fun a => (p 0).tv * (x / (p 2).tv) ^ (p 1).tv *
        Real.exp (-((x - (p 3).tv) / (p 4).tv + (p 5).tv * Real.log (x / (p 3).tv) +
          a * Real.log (x / (p 3).tv) * Real.log (x / (p 3).tv))))
        (fun t => if_neg hlt) ((ex ((((idd _).mul_const _).mul_const _).const_add _).fun_neg).const_mul _)
        (by rw [hval]; ring)⟩

example : ∃ d, ExpCutoff.deriv (fun i => ⟨[3, -2, 100, 200, 50, 1, 1].getD i 0, 1⟩) 3 500 = .ok d ∧
    Partial (fun q => ExpCutoff.value q 500) (fun i => ⟨[3, -2, 100, 200, 50, 1, 1].getD i 0, 1⟩) 3 d :=
  C50_expCutoff (by norm_num) (by norm_num [P.tv]) (by norm_num [P.tv]) (by norm_num [P.tv]) (by norm_num [P.tv])
    (by norm_num) (by norm_num [P.tv])

theorem C50_sedPeak {p : Pars} {x : ℝ} (hx : 0 < x) (hN : (p 0).tv ≠ 0) (hE : 0 < (p 2).tv) {i : Nat} (hi : i < 3) :
    ∃ d, SedPeak.deriv p i x = .ok d ∧ Partial (fun q => SedPeak.value q x) p i d := by
  have hpos : 0 < x / (p 2).tv := div_pos hx hE
  have hlog : ∀ a : ℝ, Real.log (Real.exp (1 - x / a)) = 1 - x / a := fun a => Real.log_exp _
  obtain rfl | rfl | rfl : i = 0 ∨ i = 1 ∨ i = 2 := by omega
  · exact ⟨_, rfl, partial_norm (1 / (p 2).tv ^ (2 : ℝ) * (x / (p 2).tv) ^ (p 1).tv *
      Real.exp (1 - x / (p 2).tv) ^ ((p 1).tv + 2))
      (fun t => by simp only [SedPeak.value, setv, Function.update, P.tv]; simp; ring) hN rfl⟩
  · refine ⟨_, rfl, partial_of (g := fun a => (p 0).tv / (p 2).tv ^ (2 : ℝ) * (x / (p 2).tv) ^ a *
      Real.exp (1 - x / (p 2).tv) ^ (a + 2)) (fun t => rfl)
      (((cpow hpos (idd _)).const_mul _).fun_mul (cpow (Real.exp_pos _) ((idd _).add_const _))) ?_⟩
    simp only [SedPeak.value, hlog]
    ring
  · have h0 := cdiv x (idd (p 2).tv) hE.ne'
    refine ⟨_, rfl, partial_of (g := fun a => (p 0).tv / a ^ (2 : ℝ) * (x / a) ^ (p 1).tv *
      Real.exp (1 - x / a) ^ ((p 1).tv + 2)) (fun t => rfl)
      (((cdiv (p 0).tv (powc 2 (idd _) hE) (Real.rpow_pos_of_pos hE _).ne').fun_mul (powc _ h0 hpos)).fun_mul
        (powc _ (ex (h0.const_sub 1)) (Real.exp_pos _))) ?_⟩
    have h2 : (p 2).tv ^ (2 : ℝ) ≠ 0 := (Real.rpow_pos_of_pos hE _).ne'
    simp only [SedPeak.value]
    generalize (p 2).tv ^ (2 : ℝ) = A at *
    generalize (x / (p 2).tv) ^ (p 1).tv = B at *
    have h3 : Real.exp (1 - x / (p 2).tv) ≠ 0 := (Real.exp_pos _).ne'
    generalize Real.exp (1 - x / (p 2).tv) ^ ((p 1).tv + 2) = C at *
    generalize Real.exp (1 - x / (p 2).tv) = D at *
    field_simp
    ring

example : ∃ d, SedPeak.deriv (fun i => ⟨[3, -2, 100].getD i 0, 2⟩) 2 500 = .ok d ∧
    Partial (fun q => SedPeak.value q 500) (fun i => ⟨[3, -2, 100].getD i 0, 2⟩) 2 d :=
  C50_sedPeak (by norm_num) (by norm_num [P.tv]) (by norm_num [P.tv]) (by norm_num)

theorem C50_logNormal {p : Pars} {x : ℝ} (hx : 0 < x) (hN : (p 0).tv ≠ 0) (hs : (p 2).tv ≠ 0) {i : Nat} (hi : i < 3) :
    ∃ d, LogNormal.deriv p i x = .ok d ∧ Partial (fun q => LogNormal.value q x) p i d := by
  obtain rfl | rfl | rfl : i = 0 ∨ i = 1 ∨ i = 2 := by omega
  · exact ⟨_, rfl, partial_norm (Real.log 10 / Real.sqrt (2 * Real.pi) / x / (p 2).tv *
      Real.exp (-((Real.logb 10 x - (p 1).tv) / (p 2).tv) * ((Real.logb 10 x - (p 1).tv) / (p 2).tv) / 2))
      (fun t => by simp only [LogNormal.value, setv, Function.update, P.tv]; simp; ring) hN (by ring)⟩
  · have h0 := ((idd (p 1).tv).const_sub (Real.logb 10 x)).div_const (p 2).tv
    refine ⟨_, rfl, partial_of (g := fun a => (p 0).tv * Real.log 10 / Real.sqrt (2 * Real.pi) / x / (p 2).tv *
      Real.exp (-((Real.logb 10 x - a) / (p 2).tv) * ((Real.logb 10 x - a) / (p 2).tv) / 2)) (fun t => rfl)
      ((ex ((h0.fun_neg.fun_mul h0).div_const 2)).const_mul _) ?_⟩
    simp only [LogNormal.value]
    ring
  · have h0 := cdiv (Real.logb 10 x - (p 1).tv) (idd (p 2).tv) hs
    refine ⟨_, rfl, partial_of (g := fun a => (p 0).tv * Real.log 10 / Real.sqrt (2 * Real.pi) / x / a *
      Real.exp (-((Real.logb 10 x - (p 1).tv) / a) * ((Real.logb 10 x - (p 1).tv) / a) / 2)) (fun t => rfl)
      ((cdiv _ (idd _) hs).fun_mul (ex ((h0.fun_neg.fun_mul h0).div_const 2))) ?_⟩
    simp only [LogNormal.value]
    ring

example : ∃ d, LogNormal.deriv (fun i => ⟨[3, 2, 1].getD i 0, 2⟩) 2 500 = .ok d ∧
    Partial (fun q => LogNormal.value q 500) (fun i => ⟨[3, 2, 1].getD i 0, 2⟩) 2 d :=
  C50_logNormal (by norm_num) (by norm_num [P.tv]) (by norm_num [P.tv]) (by norm_num)

theorem C50_superExpCutoff {p : Pars} {x : ℝ} (hx : 0 < x) (hN : (p 0).tv ≠ 0) (hS : 0 < (p 2).tv) (hC : 0 < (p 3).tv)
    {i : Nat} (hi : i < 5) :
    ∃ d, Sec1.deriv p i x = .ok d ∧ Partial (fun q => Sec1.value q x) p i d := by
  have hpos : 0 < x / (p 2).tv := div_pos hx hS
  have hpc : 0 < x / (p 3).tv := div_pos hx hC
  obtain rfl | rfl | rfl | rfl | rfl : i = 0 ∨ i = 1 ∨ i = 2 ∨ i = 3 ∨ i = 4 := by omega
  · exact ⟨_, rfl, partial_norm ((x / (p 2).tv) ^ (p 1).tv * Real.exp (-(x / (p 3).tv) ^ (p 4).tv))
      (fun t => by simp only [Sec1.value, setv, Function.update, P.tv]; simp; ring) hN rfl⟩
  · exact ⟨_, rfl, partial_of (g := fun a => (p 0).tv * (x / (p 2).tv) ^ a * Real.exp (-(x / (p 3).tv) ^ (p 4).tv))
      (fun t => rfl) (((cpow hpos (idd _)).const_mul _).mul_const _) (by simp only [Sec1.value]; ring)⟩
  · exact ⟨_, rfl, partial_of (g := fun a => (p 0).tv * (x / a) ^ (p 1).tv * Real.exp (-(x / (p 3).tv) ^ (p 4).tv))
      (fun t => rfl) (((powc _ (cdiv x (idd _) hS.ne') hpos).const_mul _).mul_const _)
      (by simp only [Sec1.value]; field_simp)⟩
  · exact ⟨_, rfl, partial_of (g := fun a => (p 0).tv * (x / (p 2).tv) ^ (p 1).tv * Real.exp (-(x / a) ^ (p 4).tv))
      (fun t => rfl) ((ex (powc _ (cdiv x (idd _) hC.ne') hpc).fun_neg).const_mul _)
      (by simp only [Sec1.value]; field_simp)⟩
  · exact ⟨_, rfl, partial_of (g := fun a => (p 0).tv * (x / (p 2).tv) ^ (p 1).tv * Real.exp (-(x / (p 3).tv) ^ a))
      (fun t => rfl) ((ex (cpow hpc (idd _)).fun_neg).const_mul _) (by simp only [Sec1.value]; ring)⟩

example : ∃ d, Sec1.deriv (fun i => ⟨[3, -2, 100, 1000, 1].getD i 0, 2⟩) 4 500 = .ok d ∧
    Partial (fun q => Sec1.value q 500) (fun i => ⟨[3, -2, 100, 1000, 1].getD i 0, 2⟩) 4 d :=
  C50_superExpCutoff (by norm_num) (by norm_num [P.tv]) (by norm_num [P.tv]) (by norm_num [P.tv]) (by norm_num)

end Verif.Spectra
