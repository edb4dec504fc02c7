import Verif.Binned.DerivLemmas
set_option linter.unusedVariables false
set_option linter.unusedSimpArgs false
set_option linter.unusedSectionVars false
namespace Verif.Binned

open Verif.Vec Verif.Edisp Verif.Drm
open Verif.StdMap (find put erase keys)
open scoped BigOperators

variable {ν : Type} [LinearOrder ν] {e : Env}

theorem hasDerivAt_list_sum {α : Type} (l : List α) (f : α → ℝ → ℝ) (f' : α → ℝ) (x : ℝ)
    (h : ∀ a ∈ l, HasDerivAt (f a) (f' a) x) :
    HasDerivAt (fun y => (l.map (fun a => f a y)).sum) ((l.map f').sum) x := by
  induction l with
  | nil => simpa using hasDerivAt_const x (0 : ℝ)
  | cons a l ih =>
    simp only [List.map_cons, List.sum_cons]
    exact (h a (by simp)).add (ih (fun b hb => h b (List.mem_cons_of_mem _ hb)))

theorem hasDerivAt_dispersed (u : Bool) (T : List ℝ) (w : ℝ → List (ℝ × ℝ)) (w' : List (ℝ × ℝ))
    (x : ℝ)
    (hw : ∀ t, HasDerivAt (fun y => (val (w y) t).1) (val w' t).1 x ∧
      HasDerivAt (fun y => (val (w y) t).2) (val w' t).2 x) (k p : Nat) :
    HasDerivAt (fun y => dispersed e u T (w y) k p) (dispersed e u T w' k p) x := by
  have ht : ∀ t, HasDerivAt (fun y => trueCounts e T (w y) t p) (trueCounts e T w' t p) x := by
    intro t
    unfold trueCounts
    exact ((hw t).1.const_mul _).add ((hw t).2.const_mul _)
  unfold dispersed
  by_cases hc : u = true ∧ 0 < e.ev
  · simp only [if_pos hc]
    exact HasDerivAt.fun_sum (fun i _ => (ht _).const_mul _)
  · simp only [if_neg hc]
    exact ht k

/-- Only the chosen source contributes. -/
theorem sum_single (l : List (ν × Src)) (hs : StdMap.Sorted l) {n : ν} {σ : Src}
    (hn : find l n = some σ) (g : Src → ℝ) :
    (l.map (fun s => if s.1 = n then g s.2 else 0)).sum = g σ := by
  have hm := StdMap.find_some_mem hn
  have hnd := StdMap.nodup_keys hs
  clear hs hn
  induction l with
  | nil => simp at hm
  | cons s l ih =>
    have hnd' : s.1 ∉ keys l ∧ (keys l).Nodup := by simpa [keys, List.nodup_cons] using hnd
    rcases List.mem_cons.1 hm with h | h
    · subst h
      have h0 : (l.map (fun s : ν × Src => if s.1 = n then g s.2 else 0)).sum = 0 := by
        have : ∀ s ∈ l, (if s.1 = n then g s.2 else 0) = 0 := by
          intro s hs
          rw [if_neg]
          intro hh
          exact hnd'.1 (hh ▸ List.mem_map.2 ⟨s, hs, rfl⟩)
        rw [List.map_congr_left this]
        simp
      simp [h0]
    · have hne : s.1 ≠ n := fun hh => hnd'.1 (hh ▸ List.mem_map.2 ⟨(n, σ), h, rfl⟩)
      simp only [List.map_cons, List.sum_cons, if_neg hne, zero_add]
      exact ih h hnd'.2

theorem vals_modify (ps : List Par) (i : Nat) (x : ℝ) :
    (ps.modify i (fun p => { p with value := x })).map Par.value = (ps.map Par.value).set i x := by
  apply List.ext_getElem?
  intro j
  rw [List.getElem?_map, List.getElem?_modify, List.getElem?_set, List.getElem?_map, List.length_map]
  by_cases h : i = j
  · subst h
    by_cases hl : i < ps.length
    · simp [hl]
    · simp [hl]
  · simp [h]

theorem total_setParam (srcs : List (ν × Src)) (n : ν) (i : Nat) (x : ℝ) (k p : Nat) :
    total e (setParam srcs n i x) k p =
      (srcs.map (fun s => if s.1 = n then counts e s.2 (s.2.vals.set i x) k p
        else counts e s.2 s.2.vals k p)).sum := by
  unfold total setParam
  rw [List.map_map]
  congr 1
  apply List.map_congr_left
  intro s _
  simp only [Function.comp]
  by_cases h : s.1 = n
  · simp only [if_pos h]
    unfold counts Src.vals
    rw [vals_modify]
  · simp only [if_neg h]

theorem setParam_self (srcs : List (ν × Src)) (hs : StdMap.Sorted srcs) {n : ν} {σ : Src}
    (hn : find srcs n = some σ) (i : Nat) : setParam srcs n i (val σ.vals i) = srcs := by
  unfold setParam
  conv_rhs => rw [← List.map_id srcs]
  apply List.map_congr_left
  intro s hs'
  by_cases h : s.1 = n
  · have h2 : s.2 = σ := by
      have h3 : find srcs s.1 = some s.2 := StdMap.find_of_mem hs hs'
      rw [h, hn] at h3
      injection h3 with h3
      exact h3.symm
    obtain ⟨a, b⟩ := s
    simp only at h h2
    subst h; subst h2
    simp only [if_true, id]
    have : b.pars.modify i (fun p => { p with value := val b.vals i }) = b.pars := by
      apply List.ext_getElem?
      intro j
      rw [List.getElem?_modify]
      by_cases hij : i = j
      · subst hij
        cases hp : b.pars[i]? with
        | none => simp
        | some q =>
          have : val b.vals i = q.value := by
            unfold val Src.vals
            rw [List.getElem?_map, hp]; rfl
          simp [this]
      · simp [hij]
    rw [this]
  · simp [h]

theorem hasDerivAt_total (srcs : List (ν × Src)) (hs : StdMap.Sorted srcs) {n : ν} {σ : Src}
    (hn : find srcs n = some σ) (hd : σ.Differentiable e) {i : Nat} (hi : i ∈ σ.freeIdx)
    (k p : Nat) :
    HasDerivAt (fun x => total e (setParam srcs n i x) k p) (dcounts e σ i k p) (val σ.vals i) := by
  simp only [total_setParam]
  rw [← sum_single srcs hs hn (fun σ => dcounts e σ i k p)]
  apply hasDerivAt_list_sum srcs (fun s x => if s.1 = n then counts e s.2 (s.2.vals.set i x) k p
        else counts e s.2 s.2.vals k p) (fun s => if s.1 = n then dcounts e s.2 i k p else 0)
  intro s hs'
  by_cases h : s.1 = n
  · simp only [if_pos h]
    have h2 : s.2 = σ := by
      have h3 : find srcs s.1 = some s.2 := StdMap.find_of_mem hs hs'
      rw [h, hn] at h3
      injection h3 with h3
      exact h3.symm
    rw [h2]
    unfold counts dcounts
    exact hasDerivAt_dispersed _ _ (fun x => σ.spec (e.extra σ.useEdisp) (σ.vals.set i x)) _ _
      (hd.spec i hi) k p
  · simp only [if_neg h]
    exact hasDerivAt_const _ _

theorem hasDerivAt_prior (srcs : List (ν × Src)) (hs : StdMap.Sorted srcs) {n : ν} {σ : Src}
    (hn : find srcs n = some σ) (hd : σ.Differentiable e) {i : Nat} (hi : i ∈ σ.freeIdx) :
    HasDerivAt (fun x => ((setParam srcs n i x).map
        (fun s => (s.2.pars.map (fun p => p.logPrior p.value)).sum)).sum)
      (dprior σ i) (val σ.vals i) := by
  have hmap : ∀ x, ((setParam srcs n i x).map
        (fun s => (s.2.pars.map (fun p => p.logPrior p.value)).sum)).sum =
      (srcs.map (fun s => if s.1 = n then
        ((s.2.pars.modify i (fun p => { p with value := x })).map
          (fun p => p.logPrior p.value)).sum
        else (s.2.pars.map (fun p => p.logPrior p.value)).sum)).sum := by
    intro x
    unfold setParam
    rw [List.map_map]
    congr 1
    apply List.map_congr_left
    intro s _
    simp only [Function.comp]
    by_cases h : s.1 = n <;> simp [h]
  simp only [hmap]
  rw [← sum_single srcs hs hn (fun σ => dprior σ i)]
  apply hasDerivAt_list_sum srcs (fun s x => if s.1 = n then
        ((s.2.pars.modify i (fun p => { p with value := x })).map
          (fun p => p.logPrior p.value)).sum
        else (s.2.pars.map (fun p => p.logPrior p.value)).sum)
    (fun s => if s.1 = n then dprior s.2 i else 0)
  intro s hs'
  by_cases h : s.1 = n
  · simp only [if_pos h]
    have h2 : s.2 = σ := by
      have h3 : find srcs s.1 = some s.2 := StdMap.find_of_mem hs hs'
      rw [h, hn] at h3
      injection h3 with h3
      exact h3.symm
    rw [h2]
    -- the parameter
    have hi' := hi
    unfold Src.freeIdx at hi'
    rw [List.mem_filter, List.mem_range] at hi'
    obtain ⟨hlt, hfree⟩ := hi'
    rw [List.getElem?_eq_getElem hlt] at hfree
    simp only [Option.map_some, Option.getD_some] at hfree
    have hp := hd.prior σ.pars[i] (List.getElem_mem hlt) hfree
    have hv : val σ.vals i = σ.pars[i].value := by
      unfold val Src.vals
      rw [List.getElem?_map, List.getElem?_eq_getElem hlt]; rfl
    have hdp : dprior σ i = σ.pars[i].dLogPrior σ.pars[i].value := by
      unfold dprior; rw [List.getElem?_eq_getElem hlt]
    rw [hv, hdp]
    have hsum : ∀ x, ((σ.pars.modify i (fun p => { p with value := x })).map
          (fun p => p.logPrior p.value)).sum =
        (σ.pars.map (fun p => p.logPrior p.value)).sum - σ.pars[i].logPrior σ.pars[i].value +
          σ.pars[i].logPrior x := by
      intro x
      have hgen : ∀ (l : List Par) (i : Nat) (hl : i < l.length),
          ((l.modify i (fun p => { p with value := x })).map (fun p => p.logPrior p.value)).sum =
          (l.map (fun p => p.logPrior p.value)).sum - l[i].logPrior l[i].value + l[i].logPrior x := by
        intro l
        induction l with
        | nil => intro i hl; simp at hl
        | cons a l ih =>
          intro i hl
          cases i with
          | zero => simp [List.modify_zero_cons]; ring
          | succ i =>
            have := ih i (by simpa using hl)
            simp only [List.modify_succ_cons, List.map_cons, List.sum_cons, List.getElem_cons_succ, this]
            ring
      exact hgen σ.pars i hlt
    simp only [hsum]
    exact hp.const_add _
  · simp only [if_neg h]
    exact hasDerivAt_const _ _

/-- The gradient entry is the partial derivative of the log-likelihood. -/
theorem hasDerivAt_logLike (srcs : List (ν × Src)) (hs : StdMap.Sorted srcs) {n : ν} {σ : Src}
    (hn : find srcs n = some σ) (hd : σ.Differentiable e) {i : Nat} (hi : i ∈ σ.freeIdx)
    (kmin kmax : Nat)
    (hpos : ∀ k, kmin ≤ k → k < kmax → ∀ p < e.npix, 0 < val e.data (k * e.npix + p) →
      total e srcs k p ≠ 0) :
    HasDerivAt (fun x => logLike e (setParam srcs n i x) kmin kmax)
      (gradEntry e srcs kmin kmax σ i) (val σ.vals i) := by
  unfold logLike gradEntry gradWith
  refine HasDerivAt.add ?_ (hasDerivAt_prior srcs hs hn hd hi)
  apply HasDerivAt.fun_sum
  intro k hk
  rw [Finset.mem_Ico] at hk
  apply HasDerivAt.fun_sum
  intro p hp
  rw [Finset.mem_range] at hp
  have ht := hasDerivAt_total srcs hs hn hd hi k p
  have hself := setParam_self srcs hs hn i
  refine HasDerivAt.sub ?_ (ht.const_mul _)
  by_cases hdat : 0 < val e.data (k * e.npix + p)
  · simp only [hdat, true_and, if_true]
    have hne := hpos k hk.1 hk.2 p hp hdat
    by_cases hT : 0 < total e srcs k p
    · rw [if_pos hT]
      have hev : ∀ᶠ x in nhds (val σ.vals i), 0 < total e (setParam srcs n i x) k p := by
        have := ht.continuousAt.eventually (lt_mem_nhds (a := 0) (b := total e
          (setParam srcs n i (val σ.vals i)) k p) (by rw [hself]; exact hT))
        exact this
      have hlog : HasDerivAt (fun x => val e.data (k * e.npix + p) *
          Real.log (total e (setParam srcs n i x) k p))
          (val e.data (k * e.npix + p) / total e srcs k p * dcounts e σ i k p) (val σ.vals i) := by
        have := (ht.log (by rw [hself]; exact hne)).const_mul (val e.data (k * e.npix + p))
        rw [hself] at this
        refine this.congr_deriv ?_
        ring
      refine hlog.congr_of_eventuallyEq ?_
      filter_upwards [hev] with x hx
      rw [if_pos hx]
    · rw [if_neg hT, zero_mul]
      have hneg : total e srcs k p < 0 := lt_of_le_of_ne (not_lt.1 hT) hne
      have hev : ∀ᶠ x in nhds (val σ.vals i), total e (setParam srcs n i x) k p < 0 := by
        have := ht.continuousAt.eventually (gt_mem_nhds (show total e
          (setParam srcs n i (val σ.vals i)) k p < 0 by rw [hself]; exact hneg))
        exact this
      refine (hasDerivAt_const (val σ.vals i) (0 : ℝ)).congr_of_eventuallyEq ?_
      filter_upwards [hev] with x hx
      rw [if_neg (not_lt.2 hx.le)]
  · simp only [hdat, false_and, if_false]
    exact hasDerivAt_const _ _

end Verif.Binned
