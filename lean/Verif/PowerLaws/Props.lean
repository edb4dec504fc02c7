import Verif.PowerLaws.Lemmas
set_option linter.unusedSimpArgs false
set_option linter.unusedVariables false
set_option linter.unnecessarySeqFocus false
/-
C31: the power law normalised by its integral, and its cache.
-/
namespace Verif.PowerLaws
open Verif.Spectra

/-- What the cached members of an instance mean. -/
structure Cache.Ok (c : Cache) : Prop where
  lo : c.LogXLo = Real.log c.XLo
  hi : c.LogXHi = Real.log c.XHi
  plo : c.PowXLo = c.XLo ^ (1 + c.Gamma)
  phi : c.PowXHi = c.XHi ^ (1 + c.Gamma)
  fact : c.Gamma ≠ -1 → c.GXFact = (1 + c.Gamma) / (c.PowXHi - c.PowXLo)
  pow : 0 < c.X → c.PowX = Real.exp (Real.log c.X * c.Gamma)

/-- What the static members mean. -/
def Shared.Ok (s : Shared) : Prop := 0 < s.X → s.LogX = Real.log s.X

theorem shared_ok {s : Shared} (hs : s.Ok) (c : Cache) (x g lo hi : ℝ) : (updateCache s c x g lo hi).1.Ok := by
  simp only [updateCache, Shared.Ok]
  split
  · intro _; rfl
  · exact hs

theorem shared_log {s : Shared} (hs : s.Ok) (c : Cache) {x : ℝ} (g lo hi : ℝ) (hx : 0 < x) :
    (updateCache s c x g lo hi).1.LogX = Real.log x := by
  simp only [updateCache]
  split
  · rfl
  · rename_i h
    push Not at h
    rw [← h]; exact hs (h ▸ hx)

/-- After an update the cache is that of the requested energy, index and limits. -/
theorem update_spec {s : Shared} {c : Cache} {x g lo hi : ℝ} (hs : s.Ok)
    (hc : c.Ok ∨ g ≠ c.Gamma) : (updateCache s c x g lo hi).2.Ok ∧ (updateCache s c x g lo hi).2.Gamma = g ∧
      (updateCache s c x g lo hi).2.XLo = lo ∧ (updateCache s c x g lo hi).2.XHi = hi ∧
      (updateCache s c x g lo hi).2.X = x := by
  by_cases h : g ≠ c.Gamma ∨ lo ≠ c.XLo ∨ hi ≠ c.XHi
  · have hx : x + 1 ≠ x := by intro h; linarith
    have hp : 0 < x → (if s.X ≠ x then (⟨x, Real.log x⟩ : Shared) else s).LogX = Real.log x := by
      intro h0
      split
      · rfl
      · rename_i h; push Not at h; rw [← h]; exact hs (h ▸ h0)
    simp only [updateCache, if_pos h, if_pos hx]
    refine ⟨⟨rfl, rfl, rfl, rfl, fun hg => ?_, fun h0 => ?_⟩, trivial, trivial, trivial, trivial⟩
    · simp only [if_pos hg]
    · simp only [hp h0]
  · have hc' : c.Ok := by
      rcases hc with hc | hc
      · exact hc
      · exact absurd (Or.inl hc) h
    push Not at h
    obtain ⟨rfl, rfl, rfl⟩ := h
    have hp : 0 < x → (if s.X ≠ x then (⟨x, Real.log x⟩ : Shared) else s).LogX = Real.log x := by
      intro h0
      split
      · rfl
      · rename_i h; push Not at h; rw [← h]; exact hs (h ▸ h0)
    simp only [updateCache, ne_eq, not_true_eq_false, or_self, if_false]
    by_cases hX : c.X = x
    · simp only [hX, not_true_eq_false, if_false]
      exact ⟨hc', trivial, trivial, trivial, trivial⟩
    · simp only [if_pos hX]
      exact ⟨⟨hc'.lo, hc'.hi, hc'.plo, hc'.phi, hc'.fact, fun h0 => by
        simp only [ne_eq] at hp; simp only [hp h0]⟩, trivial, trivial, trivial, trivial⟩

/-- Every reachable state has good caches. -/
structure Good (w : PL2.World) : Prop where
  shared : w.shared.Ok
  objs : ∀ c ∈ w.objs, c.Ok

theorem good_step {w : PL2.World} (h : Good w) (op : PL2.Op) : Good (PL2.step w op) := by
  have hset : ∀ {k : Nat} {c d : Cache}, w.objs[k]? = some c → d.Ok → ∀ e ∈ w.objs.set k d, e.Ok := by
    intro k c d hk hd e he
    rcases List.mem_or_eq_of_mem_set he with h1 | h1
    · exact h.objs e h1
    · exact h1 ▸ hd
  cases op with
  | make junk index lo hi =>
    refine ⟨shared_ok h.shared { junk with Gamma := index + 1, X := 0 } 1 index lo hi, fun c hc => ?_⟩
    rcases List.mem_append.mp hc with hc | hc
    · exact h.objs c hc
    · rw [List.mem_singleton] at hc
      rw [hc]
      refine (update_spec h.shared (Or.inr ?_)).1
      intro he
      simp only at he
      linarith
  | copy k =>
    simp only [PL2.step]
    cases hk : w.objs[k]? with
    | none => exact h
    | some c =>
      refine ⟨h.shared, fun e he => ?_⟩
      rcases List.mem_append.mp he with he | he
      · exact h.objs e he
      · rw [List.mem_singleton] at he
        exact he ▸ h.objs c (List.mem_of_getElem? hk)
  | value k p x =>
    simp only [PL2.step]
    cases hk : w.objs[k]? with
    | none => exact h
    | some c =>
      have hc := h.objs c (List.mem_of_getElem? hk)
      exact ⟨shared_ok h.shared c x (p 1).tv (p 2).tv (p 3).tv, hset hk (update_spec h.shared (Or.inl hc)).1⟩
  | deriv k p i x =>
    simp only [PL2.step]
    cases hk : w.objs[k]? with
    | none => exact h
    | some c =>
      have hc := h.objs c (List.mem_of_getElem? hk)
      exact ⟨shared_ok h.shared c x (p 1).tv (p 2).tv (p 3).tv, hset hk (update_spec h.shared (Or.inl hc)).1⟩

theorem good_run (ops : List PL2.Op) : Good (PL2.run ops) := by
  have : ∀ (ops : List PL2.Op) (w : PL2.World), Good w → Good (ops.foldl PL2.step w) := by
    intro ops
    induction ops with
    | nil => intro w h; exact h
    | cons o t ih => intro w h; exact ih _ (good_step h o)
  refine this ops _ ⟨fun h => absurd h (lt_irrefl _), fun c hc => ?_⟩
  simp at hc

/-- The value, for good caches. -/
theorem value_eq {s : Shared} {c : Cache} (hs : s.Ok) (hc : c.Ok) {p : Pars} {x : ℝ} (hx : 0 < x) (hlo : 0 < (p 2).tv)
    (hhi : 0 < (p 3).tv) :
    (PL2.value s c p x).2.2 = normalised (p 0).tv (p 1).tv (p 2).tv (p 3).tv x := by
  obtain ⟨ho, hg, hl, hh, hX⟩ := update_spec (x := x) (g := (p 1).tv) (lo := (p 2).tv) (hi := (p 3).tv) hs (Or.inl hc)
  simp only [PL2.value, normalised]
  split
  · rename_i h1
    rw [h1] at hl hh ho ⊢
    rw [int_inv hlo hhi, Real.rpow_neg_one, ho.hi, ho.lo, hl, hh]
    ring
  · rename_i h1
    have h2 : 1 + (p 1).tv ≠ 0 := fun h => h1 (by linarith)
    rw [int_pow hlo hhi h1, ho.fact (by rw [hg]; exact h1), ho.pow (by rw [hX]; exact hx), ho.phi, ho.plo, hg, hl, hh, hX,
      Real.rpow_def_of_pos hx]
    rw [mul_div_assoc, div_div_eq_mul_div]
    ring

/-- Whatever was created, copied or evaluated before, a positive energy gives the same
value: the power law with the requested integral. -/
theorem C31_history (ops : List PL2.Op) {k : Nat} {c : Cache} (hk : (PL2.run ops).objs[k]? = some c) {p : Pars} {x : ℝ}
    (hx : 0 < x) (hlo : 0 < (p 2).tv) (hhi : 0 < (p 3).tv) :
    (PL2.value (PL2.run ops).shared c p x).2.2 = normalised (p 0).tv (p 1).tv (p 2).tv (p 3).tv x :=
  value_eq (good_run ops).shared ((good_run ops).objs c (List.mem_of_getElem? hk)) hx hlo hhi

/-- It integrates to the Integral parameter between its limits. -/
theorem C31_normalised {N g lo hi : ℝ} (hlo : 0 < lo) (hhi : lo < hi) : ∫ x in lo..hi, normalised N g lo hi x = N := by
  have h := (int_pos (g := g) hlo hhi).ne'
  have : ∀ x : ℝ, normalised N g lo hi x = N / (∫ y in lo..hi, y ^ g) * x ^ g := by
    intro x; simp only [normalised]; ring
  simp only [this, intervalIntegral.integral_const_mul]
  field_simp

/-- The derivatives are right whatever was evaluated before, also at index -1. -/
theorem C31_derivatives (ops : List PL2.Op) {k : Nat} {c : Cache} (hk : (PL2.run ops).objs[k]? = some c) {p : Pars}
    {x : ℝ} (hx : 0 < x) (hlo : 0 < (p 2).tv) (hhi : (p 2).tv < (p 3).tv) {i : Nat} (hi : i < 2) :
    ∃ d, (PL2.deriv (PL2.run ops).shared c p i x).2.2 = .ok d ∧
      Partial (fun q => normalised (q 0).tv (q 1).tv (q 2).tv (q 3).tv x) p i d := by
  have hs := (good_run ops).shared
  have hc := (good_run ops).objs c (List.mem_of_getElem? hk)
  have hhi' : 0 < (p 3).tv := hlo.trans hhi
  obtain ⟨ho, hg, hl, hh, hX⟩ := update_spec (x := x) (g := (p 1).tv) (lo := (p 2).tv) (hi := (p 3).tv) hs (Or.inl hc)
  have hS := shared_log hs c (p 1).tv (p 2).tv (p 3).tv hx
  have hpos := (int_pos (g := (p 1).tv) hlo hhi).ne'
  obtain rfl | rfl : i = 0 ∨ i = 1 := by omega
  · refine ⟨_, rfl, partial_of (g := fun a => a * x ^ (p 1).tv / ∫ y in (p 2).tv..(p 3).tv, y ^ (p 1).tv)
      (fun t => rfl) (((idd _).mul_const _).div_const _) ?_⟩
    by_cases h1 : (p 1).tv = -1
    · simp only [if_pos h1]
      rw [h1] at hl hh ho ⊢
      rw [int_inv hlo hhi', Real.rpow_neg_one, ho.hi, ho.lo, hl, hh]
      ring
    · simp only [if_neg h1]
      rw [int_pow hlo hhi' h1, ho.fact (by rw [hg]; exact h1), ho.pow (by rw [hX]; exact hx), ho.phi, ho.plo, hg, hl, hh,
        hX, Real.rpow_def_of_pos hx, div_div_eq_mul_div]
      ring
  · have hx' : HasDerivAt (fun a : ℝ => (p 0).tv * x ^ a) _ (p 1).tv := (cpow hx (idd (p 1).tv)).const_mul (p 0).tv
    by_cases h1 : (p 1).tv = -1
    · have hd : HasDerivAt (fun g : ℝ => ∫ y in (p 2).tv..(p 3).tv, y ^ g)
          ((Real.log (p 3).tv ^ 2 - Real.log (p 2).tv ^ 2) / 2) (p 1).tv := by
        rw [h1]; exact int_deriv_neg_one hlo hhi'
      refine ⟨_, rfl, partial_of (g := fun a => (p 0).tv * x ^ a / ∫ y in (p 2).tv..(p 3).tv, y ^ a)
        (fun t => rfl) (hx'.fun_div hd hpos) ?_⟩
      simp only [if_pos h1]
      rw [h1] at hl hh ho hS hpos ⊢
      rw [int_inv hlo hhi'] at hpos
      rw [int_inv hlo hhi', Real.rpow_neg_one, ho.hi, ho.lo, hl, hh, hS]
      field_simp
      ring
    · have h2 : 1 + (p 1).tv ≠ 0 := fun h => h1 (by linarith)
      have h3 := sub_pow_ne hlo hhi h2
      refine ⟨_, rfl, partial_of (g := fun a => (p 0).tv * x ^ a / ∫ y in (p 2).tv..(p 3).tv, y ^ a)
        (fun t => rfl) (hx'.fun_div (int_deriv hlo hhi' h1) hpos) ?_⟩
      simp only [if_neg h1]
      rw [int_pow hlo hhi' h1, ho.pow (by rw [hX]; exact hx), ho.phi, ho.plo, ho.hi, ho.lo, hg, hl, hh, hX, hS,
        ← Real.rpow_def_of_pos hx]
      field_simp
      ring

/-- A history with two instances, alternating energies and changed parameters. -/
example (junk : Cache) (q : Pars) : ∃ c, (PL2.run [.make junk (-2) 100 1000, .make junk (-1) 10 20, .value 0 q 300,
    .copy 0, .value 1 q 500]).objs[2]? = some c ∧
    (PL2.value (PL2.run [.make junk (-2) 100 1000, .make junk (-1) 10 20, .value 0 q 300,
      .copy 0, .value 1 q 500]).shared c (fun i => ⟨[5, -2, 100, 200].getD i 0, 1⟩) 300).2.2 =
      normalised 5 (-2) 100 200 300 := by
  refine ⟨_, rfl, ?_⟩
  have := C31_history [.make junk (-2) 100 1000, .make junk (-1) 10 20, .value 0 q 300, .copy 0, .value 1 q 500]
    (k := 2) rfl (p := fun i => ⟨[5, -2, 100, 200].getD i 0, 1⟩) (x := 300) (by norm_num) (by norm_num [P.tv])
    (by norm_num [P.tv])
  simpa [P.tv] using this

example : ∫ x in (100:ℝ)..1000, normalised 3 (-1) 100 1000 x = 3 := C31_normalised (by norm_num) (by norm_num)

/-- The `integral` method, for an index other than -1. -/
theorem C31_integral_partial {p : Pars} (hlo : 0 < (p 2).tv) (hhi : 0 < (p 3).tv) (hg : (p 1).tv ≠ -1) :
    Integrates (normalised (p 0).tv (p 1).tv (p 2).tv (p 3).tv) (PL2.integral p) := by
  intro a b ha hb
  have h2 : 1 + (p 1).tv ≠ 0 := fun h => hg (by linarith)
  have : ∀ x : ℝ, normalised (p 0).tv (p 1).tv (p 2).tv (p 3).tv x =
      (p 0).tv / (∫ y in (p 2).tv..(p 3).tv, y ^ (p 1).tv) * x ^ (p 1).tv := by
    intro x; simp only [normalised]; ring
  simp only [this, intervalIntegral.integral_const_mul]
  rw [int_pow hlo hhi hg, int_pow ha hb hg, PL2.integral, sub_neg_eq_add, div_div_eq_mul_div]
  have hm : ∀ u v w z : ℝ, w ≠ 0 → u * (v / z) = u * w / z * (v / w) := by
    intro u v w z hw; field_simp
  exact hm _ _ _ _ h2

example : Integrates (normalised 3 (-2) 100 1000) (PL2.integral (fun i => ⟨[3, -2, 100, 1000].getD i 0, 1⟩)) := by
  have := C31_integral_partial (p := fun i => ⟨[3, -2, 100, 1000].getD i 0, 1⟩) (by norm_num [P.tv]) (by norm_num [P.tv])
    (by norm_num [P.tv])
  simpa [P.tv] using this

/-- At index -1 it divides zero by zero; it is not the integral. -/
theorem C31_integral_violates {p : Pars} (hN : (p 0).tv ≠ 0) (hg : (p 1).tv = -1) (hlo : 0 < (p 2).tv)
    (hhi : (p 2).tv < (p 3).tv) :
    (p 3).tv ^ (1 + (p 1).tv) - (p 2).tv ^ (1 + (p 1).tv) = 0 ∧
    PL2.integral p (p 2).tv (p 3).tv ≠ ∫ x in (p 2).tv..(p 3).tv, normalised (p 0).tv (p 1).tv (p 2).tv (p 3).tv x := by
  refine ⟨by rw [hg]; simp, ?_⟩
  rw [C31_normalised hlo hhi, PL2.integral, hg]
  simpa using hN.symm

example : PL2.integral (fun i => ⟨[3, -1, 100, 1000].getD i 0, 1⟩) 100 1000 ≠
    ∫ x in (100:ℝ)..1000, normalised 3 (-1) 100 1000 x := by
  have := (C31_integral_violates (p := fun i => ⟨[3, -1, 100, 1000].getD i 0, 1⟩) (by norm_num [P.tv])
    (by norm_num [P.tv]) (by norm_num [P.tv]) (by norm_num [P.tv])).2
  simpa [P.tv] using this

end Verif.PowerLaws
