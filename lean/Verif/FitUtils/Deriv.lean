import Verif.FitUtils.Lemmas
import Mathlib.Topology.Order.Basic
set_option linter.unusedSectionVars false
set_option linter.unusedSimpArgs false
set_option linter.unusedVariables false
open scoped BigOperators Topology

namespace Verif.FitUtils

open Spec

theorem rangeStop_le {n last : Nat} (h : last ≤ n) : rangeStop n last ≤ n := by
  unfold rangeStop; split <;> omega

/-- Weighted closed form of `getLogLikelihood`. -/
theorem getLL_weighted {data norms : List ℝ} {ts : List (List ℝ)} {fixed w scratch : List ℝ}
    {prior : Option MVPrior} {first last : Nat}
    (sh : Shapes data norms ts fixed (some w) scratch first last)
    (hp : ∀ k, InRange data.length first last k → 0 ≤ modelAt norms ts fixed k ∧
      ((1e-9 : ℝ) < val data k * val w k → 0 < modelAt norms ts fixed k)) :
    getLogLikelihood data norms ts fixed prior (some w) scratch first last =
      .ok (∑ k ∈ Finset.range (rangeStop data.length last - first),
        term (val data (first + k)) (modelAt norms ts fixed (first + k)) (val w (first + k)) +
        (prior.map (fun p => p.logLikelihood norms)).getD 0) := by
  have hst := rangeStop_le sh.last
  have hw := sh.weights w rfl
  obtain ⟨T, hT1, hT2, hT3⟩ := sumModel_ok (norms := norms) (ts := ts) (fixed := fixed)
    (total := scratch) (first := first) (last := last)
    (by rw [sh.fixed, sh.scratch]) sh.norms (by rw [sh.scratch]; exact sh.first')
    (by rw [sh.scratch]; exact hst) (by rw [sh.scratch]; intro t ht; rw [sh.templates t ht]; exact hst)
  rw [sh.scratch] at hT2 hT3
  obtain ⟨d, hd1, hd2, hd3⟩ := slice_ok sh.first' hst
  obtain ⟨m, hm1, hm2, hm3⟩ := slice_ok (l := T) (a := first) (b := rangeStop data.length last)
    sh.first' (by rw [hT2]; exact hst)
  obtain ⟨ws, hw1, hw2, hw3⟩ := slice_ok (l := w) (a := first) (b := rangeStop data.length last)
    sh.first' (by rw [hw]; exact hst)
  have hmk : ∀ k < rangeStop data.length last - first,
      val m k = modelAt norms ts fixed (first + k) := by
    intro k hk
    rw [hm3 k hk, hT3, if_pos (by omega)]
  unfold getLogLikelihood
  rw [hd1, Res.bind_ok, hT1, Res.bind_ok, hT2, hm1, Res.bind_ok]
  simp only [hw, hw1, Res.bind_ok]
  unfold logLikePoissonW
  rw [if_neg (by simp [hd2, hm2]), if_neg (by simp [hd2, hw2])]
  rw [llLoopW_ok _ _ _ _ _ (by omega) (by omega)]
  · rw [Res.bind_ok]
    have hsum : ∑ k ∈ Finset.range d.length, term (val d k) (val m k) (val ws k) =
        ∑ k ∈ Finset.range (rangeStop data.length last - first),
        term (val data (first + k)) (modelAt norms ts fixed (first + k)) (val w (first + k)) := by
      rw [hd2]
      refine Finset.sum_congr rfl fun k hk => ?_
      have hk := Finset.mem_range.1 hk
      rw [hd3 k hk, hmk k hk, hw3 k hk]
    rw [hsum]
    cases prior <;> simp
  · intro k hk
    rw [hd2] at hk
    rw [hd3 k hk, hmk k hk, hw3 k hk]
    exact hp (first + k) ⟨by omega, by rw [← rangeStop_eq]; omega⟩

/-- Without weights the computation is the one with unit weights. -/
theorem getLL_ones {data norms : List ℝ} {ts : List (List ℝ)} {fixed scratch : List ℝ}
    {prior : Option MVPrior} {first last : Nat}
    (sh : Shapes data norms ts fixed none scratch first last) :
    getLogLikelihood data norms ts fixed prior none scratch first last =
    getLogLikelihood data norms ts fixed prior (some (List.replicate data.length 1)) scratch first
      last := by
  have hst := rangeStop_le sh.last
  obtain ⟨d, hd1, hd2, hd3⟩ := slice_ok sh.first' hst
  unfold getLogLikelihood
  rw [hd1, Res.bind_ok, Res.bind_ok]
  simp only [List.length_replicate, slice_replicate sh.first' hst, Res.bind_ok,
    logLikePoisson_ones, hd2]

theorem shapes_ones {data norms : List ℝ} {ts : List (List ℝ)} {fixed scratch : List ℝ}
    {first last : Nat} (sh : Shapes data norms ts fixed none scratch first last) :
    Shapes data norms ts fixed (some (List.replicate data.length 1)) scratch first last :=
  ⟨sh.fixed, sh.scratch, sh.norms, sh.templates, by rintro w ⟨⟩; simp, sh.first', sh.last⟩

/-- Closed form of `getLogLikelihood`. -/
theorem getLL_eq {data norms : List ℝ} {ts : List (List ℝ)} {fixed scratch : List ℝ}
    {weights : Option (List ℝ)} {prior : Option MVPrior} {first last : Nat}
    (sh : Shapes data norms ts fixed weights scratch first last)
    (hp : ∀ k, InRange data.length first last k → 0 ≤ modelAt norms ts fixed k ∧
      ((1e-9 : ℝ) < val data k * weightAt weights k → 0 < modelAt norms ts fixed k)) :
    getLogLikelihood data norms ts fixed prior weights scratch first last =
      .ok (∑ k ∈ Finset.range (rangeStop data.length last - first),
        term (val data (first + k)) (modelAt norms ts fixed (first + k))
          (weightAt weights (first + k)) +
        (prior.map (fun p => p.logLikelihood norms)).getD 0) := by
  cases weights with
  | some w => exact getLL_weighted sh hp
  | none =>
    have hst := rangeStop_le sh.last
    rw [getLL_ones sh, getLL_weighted (shapes_ones sh)]
    · congr 2
      refine Finset.sum_congr rfl fun k hk => ?_
      have hk := Finset.mem_range.1 hk
      rw [val_replicate (by omega)]; rfl
    · intro k hk
      rw [val_replicate (by have := hk.2; rw [← rangeStop_eq] at this; omega)]
      exact hp k hk

theorem gradient_weighted {data norms : List ℝ} {ts : List (List ℝ)} {fixed w scratch : List ℝ}
    {prior : Option MVPrior} {first last i : Nat} (hi : i < norms.length)
    (sh : Shapes data norms ts fixed (some w) scratch first last)
    (hp : ∀ k, InRange data.length first last k → val data k ≤ 0 ∨ 0 < modelAt norms ts fixed k) :
    gradientAt data norms ts fixed prior (some w) scratch first last i =
      .ok (∑ k ∈ Finset.range (rangeStop data.length last - first),
        val w (first + k) *
          (if val data (first + k) ≤ 0 then 1
            else 1 - val data (first + k) / modelAt norms ts fixed (first + k)) *
          tmplAt ts i (first + k) +
        (prior.map (fun p => p.gradient norms i)).getD 0) := by
  have hst := rangeStop_le sh.last
  have hw := sh.weights w rfl
  have hi' : i < ts.length := by rw [sh.norms]; exact hi
  obtain ⟨T, hT1, hT2, hT3⟩ := sumModel_ok (norms := norms) (ts := ts) (fixed := fixed)
    (total := scratch) (first := first) (last := last)
    (by rw [sh.fixed, sh.scratch]) sh.norms (by rw [sh.scratch]; exact sh.first')
    (by rw [sh.scratch]; exact hst) (by rw [sh.scratch]; intro t ht; rw [sh.templates t ht]; exact hst)
  rw [sh.scratch] at hT2 hT3
  obtain ⟨d, hd1, hd2, hd3⟩ := slice_ok sh.first' hst
  obtain ⟨m, hm1, hm2, hm3⟩ := slice_ok (l := T) (a := first) (b := rangeStop data.length last)
    sh.first' (by rw [hT2]; exact hst)
  obtain ⟨ws, hw1, hw2, hw3⟩ := slice_ok (l := w) (a := first) (b := rangeStop data.length last)
    sh.first' (by rw [hw]; exact hst)
  obtain ⟨t, ht1, ht2, ht3⟩ := slice_ok (l := ts[i]) (a := first) (b := rangeStop data.length last)
    sh.first' (by rw [sh.templates _ (List.getElem_mem hi')]; exact hst)
  have hmk : ∀ k < rangeStop data.length last - first,
      val m k = modelAt norms ts fixed (first + k) := by
    intro k hk
    rw [hm3 k hk, hT3, if_pos (by omega)]
  have hdm : ∀ k < d.length, val d k ≤ 0 ∨ 0 < val m k := by
    intro k hk
    rw [hd2] at hk
    rw [hd3 k hk, hmk k hk]
    exact hp (first + k) ⟨by omega, by rw [← rangeStop_eq]; omega⟩
  obtain ⟨f, hf1, hf2, hf3⟩ := fracDiffLoop_ok d m (by omega) hdm
  obtain ⟨g, hg1, _, _⟩ := dataOverModel2Loop_ok d m (by omega) hdm
  unfold gradientAt
  simp only [hT1, Res.bind_ok, hd1, hm1]
  unfold fracDiff dataOverModel2
  rw [if_neg (by simp; omega), hf1, Res.bind_ok, if_neg (by simp; omega), hg1, Res.bind_ok,
    vget_lt _ _ hi', Res.bind_ok]
  unfold gradElem
  rw [ht1, Res.bind_ok]
  simp only [hw1, Res.bind_ok]
  rw [innerProduct3_eq (by omega) (by omega), Res.bind_ok]
  have hsum : ∑ k ∈ Finset.range ws.length, val ws k * val f k * val t k =
      ∑ k ∈ Finset.range (rangeStop data.length last - first),
        val w (first + k) *
          (if val data (first + k) ≤ 0 then 1
            else 1 - val data (first + k) / modelAt norms ts fixed (first + k)) *
          tmplAt ts i (first + k) := by
    rw [hw2]
    refine Finset.sum_congr rfl fun k hk => ?_
    have hk := Finset.mem_range.1 hk
    rw [hw3 k hk, hf3 k (by omega), hd3 k hk, hmk k hk, ht3 k hk]
    simp [tmplAt, List.getElem?_eq_getElem hi']
  rw [hsum]
  cases prior <;> simp

theorem gradient_ones {data norms : List ℝ} {ts : List (List ℝ)} {fixed scratch : List ℝ}
    {prior : Option MVPrior} {first last i : Nat} (hi : i < norms.length)
    (sh : Shapes data norms ts fixed none scratch first last)
    (hp : ∀ k, InRange data.length first last k → val data k ≤ 0 ∨ 0 < modelAt norms ts fixed k) :
    gradientAt data norms ts fixed prior none scratch first last i =
      gradientAt data norms ts fixed prior (some (List.replicate data.length 1)) scratch first
        last i := by
  have hst := rangeStop_le sh.last
  have hi' : i < ts.length := by rw [sh.norms]; exact hi
  obtain ⟨T, hT1, hT2, hT3⟩ := sumModel_ok (norms := norms) (ts := ts) (fixed := fixed)
    (total := scratch) (first := first) (last := last)
    (by rw [sh.fixed, sh.scratch]) sh.norms (by rw [sh.scratch]; exact sh.first')
    (by rw [sh.scratch]; exact hst) (by rw [sh.scratch]; intro t ht; rw [sh.templates t ht]; exact hst)
  rw [sh.scratch] at hT2 hT3
  obtain ⟨d, hd1, hd2, hd3⟩ := slice_ok sh.first' hst
  obtain ⟨m, hm1, hm2, hm3⟩ := slice_ok (l := T) (a := first) (b := rangeStop data.length last)
    sh.first' (by rw [hT2]; exact hst)
  have hmk : ∀ k < rangeStop data.length last - first,
      val m k = modelAt norms ts fixed (first + k) := by
    intro k hk
    rw [hm3 k hk, hT3, if_pos (by omega)]
  have hdm : ∀ k < d.length, val d k ≤ 0 ∨ 0 < val m k := by
    intro k hk
    rw [hd2] at hk
    rw [hd3 k hk, hmk k hk]
    exact hp (first + k) ⟨by omega, by rw [← rangeStop_eq]; omega⟩
  obtain ⟨f, hf1, hf2, hf3⟩ := fracDiffLoop_ok d m (by omega) hdm
  obtain ⟨t, ht1, ht2, ht3⟩ := slice_ok (l := ts[i]) (a := first) (b := rangeStop data.length last)
    sh.first' (by rw [sh.templates _ (List.getElem_mem hi')]; exact hst)
  unfold gradientAt
  simp only [hT1, Res.bind_ok, hd1, hm1]
  unfold fracDiff
  rw [if_neg (by simp; omega), hf1]
  simp only [Res.bind_ok, vget_lt _ _ hi']
  unfold gradElem
  simp only [ht1, Res.bind_ok, slice_replicate sh.first' hst]
  rw [innerProduct2_ones, show f.length = rangeStop data.length last - first by omega]

theorem gradient_eq {data norms : List ℝ} {ts : List (List ℝ)} {fixed scratch : List ℝ}
    {weights : Option (List ℝ)} {prior : Option MVPrior} {first last i : Nat}
    (hi : i < norms.length)
    (sh : Shapes data norms ts fixed weights scratch first last)
    (hp : ∀ k, InRange data.length first last k → val data k ≤ 0 ∨ 0 < modelAt norms ts fixed k) :
    gradientAt data norms ts fixed prior weights scratch first last i =
      .ok (∑ k ∈ Finset.range (rangeStop data.length last - first),
        weightAt weights (first + k) *
          (if val data (first + k) ≤ 0 then 1
            else 1 - val data (first + k) / modelAt norms ts fixed (first + k)) *
          tmplAt ts i (first + k) +
        (prior.map (fun p => p.gradient norms i)).getD 0) := by
  cases weights with
  | some w => exact gradient_weighted hi sh hp
  | none =>
    have hst := rangeStop_le sh.last
    rw [gradient_ones hi sh hp, gradient_weighted hi (shapes_ones sh) hp]
    congr 2
    refine Finset.sum_congr rfl fun k hk => ?_
    have hk := Finset.mem_range.1 hk
    rw [val_replicate (by omega)]; rfl

theorem hessian_weighted {data norms : List ℝ} {ts : List (List ℝ)} {fixed w scratch : List ℝ}
    {prior : Option MVPrior} {first last i j : Nat} (hi : i < norms.length) (hj : j < norms.length)
    (sh : Shapes data norms ts fixed (some w) scratch first last)
    (hp : ∀ k, InRange data.length first last k → val data k ≤ 0 ∨ 0 < modelAt norms ts fixed k) :
    hessianAt data norms ts fixed prior (some w) scratch first last i j =
      .ok (∑ k ∈ Finset.range (rangeStop data.length last - first),
        val w (first + k) *
          (if val data (first + k) ≤ 0 then 0
            else val data (first + k) /
              (modelAt norms ts fixed (first + k) * modelAt norms ts fixed (first + k))) *
          tmplAt ts i (first + k) * tmplAt ts j (first + k) +
        (prior.map (fun p => mat p.hessian i j)).getD 0) := by
  have hst := rangeStop_le sh.last
  have hw := sh.weights w rfl
  have hi' : i < ts.length := by rw [sh.norms]; exact hi
  have hj' : j < ts.length := by rw [sh.norms]; exact hj
  obtain ⟨T, hT1, hT2, hT3⟩ := sumModel_ok (norms := norms) (ts := ts) (fixed := fixed)
    (total := scratch) (first := first) (last := last)
    (by rw [sh.fixed, sh.scratch]) sh.norms (by rw [sh.scratch]; exact sh.first')
    (by rw [sh.scratch]; exact hst) (by rw [sh.scratch]; intro t ht; rw [sh.templates t ht]; exact hst)
  rw [sh.scratch] at hT2 hT3
  obtain ⟨d, hd1, hd2, hd3⟩ := slice_ok sh.first' hst
  obtain ⟨m, hm1, hm2, hm3⟩ := slice_ok (l := T) (a := first) (b := rangeStop data.length last)
    sh.first' (by rw [hT2]; exact hst)
  obtain ⟨ws, hw1, hw2, hw3⟩ := slice_ok (l := w) (a := first) (b := rangeStop data.length last)
    sh.first' (by rw [hw]; exact hst)
  obtain ⟨t, ht1, ht2, ht3⟩ := slice_ok (l := ts[i]) (a := first) (b := rangeStop data.length last)
    sh.first' (by rw [sh.templates _ (List.getElem_mem hi')]; exact hst)
  obtain ⟨u, hu1, hu2, hu3⟩ := slice_ok (l := ts[j]) (a := first) (b := rangeStop data.length last)
    sh.first' (by rw [sh.templates _ (List.getElem_mem hj')]; exact hst)
  have hmk : ∀ k < rangeStop data.length last - first,
      val m k = modelAt norms ts fixed (first + k) := by
    intro k hk
    rw [hm3 k hk, hT3, if_pos (by omega)]
  have hdm : ∀ k < d.length, val d k ≤ 0 ∨ 0 < val m k := by
    intro k hk
    rw [hd2] at hk
    rw [hd3 k hk, hmk k hk]
    exact hp (first + k) ⟨by omega, by rw [← rangeStop_eq]; omega⟩
  obtain ⟨f, hf1, _, _⟩ := fracDiffLoop_ok d m (by omega) hdm
  obtain ⟨g, hg1, hg2, hg3⟩ := dataOverModel2Loop_ok d m (by omega) hdm
  unfold hessianAt
  simp only [hT1, Res.bind_ok, hd1, hm1]
  unfold fracDiff dataOverModel2
  rw [if_neg (by simp; omega), hf1, Res.bind_ok, if_neg (by simp; omega), hg1, Res.bind_ok,
    vget_lt _ _ hi', Res.bind_ok, vget_lt _ _ hj', Res.bind_ok]
  unfold hessElem
  rw [ht1, Res.bind_ok, hu1, Res.bind_ok]
  simp only [hw1, Res.bind_ok]
  rw [innerProduct4_eq (by omega) (by omega) (by omega), Res.bind_ok]
  have hsum : ∑ k ∈ Finset.range ws.length, val ws k * val g k * val t k * val u k =
      ∑ k ∈ Finset.range (rangeStop data.length last - first),
        val w (first + k) *
          (if val data (first + k) ≤ 0 then 0
            else val data (first + k) /
              (modelAt norms ts fixed (first + k) * modelAt norms ts fixed (first + k))) *
          tmplAt ts i (first + k) * tmplAt ts j (first + k) := by
    rw [hw2]
    refine Finset.sum_congr rfl fun k hk => ?_
    have hk := Finset.mem_range.1 hk
    rw [hw3 k hk, hg3 k (by omega), hd3 k hk, hmk k hk, ht3 k hk, hu3 k hk]
    simp [tmplAt, List.getElem?_eq_getElem hi', List.getElem?_eq_getElem hj']
  rw [hsum]
  cases prior <;> simp

theorem hessian_ones {data norms : List ℝ} {ts : List (List ℝ)} {fixed scratch : List ℝ}
    {prior : Option MVPrior} {first last i j : Nat} (hi : i < norms.length) (hj : j < norms.length)
    (sh : Shapes data norms ts fixed none scratch first last)
    (hp : ∀ k, InRange data.length first last k → val data k ≤ 0 ∨ 0 < modelAt norms ts fixed k) :
    hessianAt data norms ts fixed prior none scratch first last i j =
      hessianAt data norms ts fixed prior (some (List.replicate data.length 1)) scratch first
        last i j := by
  have hst := rangeStop_le sh.last
  have hi' : i < ts.length := by rw [sh.norms]; exact hi
  have hj' : j < ts.length := by rw [sh.norms]; exact hj
  obtain ⟨T, hT1, hT2, hT3⟩ := sumModel_ok (norms := norms) (ts := ts) (fixed := fixed)
    (total := scratch) (first := first) (last := last)
    (by rw [sh.fixed, sh.scratch]) sh.norms (by rw [sh.scratch]; exact sh.first')
    (by rw [sh.scratch]; exact hst) (by rw [sh.scratch]; intro t ht; rw [sh.templates t ht]; exact hst)
  rw [sh.scratch] at hT2 hT3
  obtain ⟨d, hd1, hd2, hd3⟩ := slice_ok sh.first' hst
  obtain ⟨m, hm1, hm2, hm3⟩ := slice_ok (l := T) (a := first) (b := rangeStop data.length last)
    sh.first' (by rw [hT2]; exact hst)
  have hmk : ∀ k < rangeStop data.length last - first,
      val m k = modelAt norms ts fixed (first + k) := by
    intro k hk
    rw [hm3 k hk, hT3, if_pos (by omega)]
  have hdm : ∀ k < d.length, val d k ≤ 0 ∨ 0 < val m k := by
    intro k hk
    rw [hd2] at hk
    rw [hd3 k hk, hmk k hk]
    exact hp (first + k) ⟨by omega, by rw [← rangeStop_eq]; omega⟩
  obtain ⟨f, hf1, hf2, hf3⟩ := fracDiffLoop_ok d m (by omega) hdm
  obtain ⟨g, hg1, hg2, hg3⟩ := dataOverModel2Loop_ok d m (by omega) hdm
  obtain ⟨t, ht1, ht2, ht3⟩ := slice_ok (l := ts[i]) (a := first) (b := rangeStop data.length last)
    sh.first' (by rw [sh.templates _ (List.getElem_mem hi')]; exact hst)
  obtain ⟨u, hu1, hu2, hu3⟩ := slice_ok (l := ts[j]) (a := first) (b := rangeStop data.length last)
    sh.first' (by rw [sh.templates _ (List.getElem_mem hj')]; exact hst)
  unfold hessianAt
  simp only [hT1, Res.bind_ok, hd1, hm1]
  unfold fracDiff dataOverModel2
  rw [if_neg (by simp; omega), hf1, if_neg (by simp; omega), hg1]
  simp only [Res.bind_ok, vget_lt _ _ hi', vget_lt _ _ hj']
  unfold hessElem
  simp only [ht1, hu1, Res.bind_ok, slice_replicate sh.first' hst]
  rw [innerProduct3_ones, show g.length = rangeStop data.length last - first by omega]

theorem hessian_eq {data norms : List ℝ} {ts : List (List ℝ)} {fixed scratch : List ℝ}
    {weights : Option (List ℝ)} {prior : Option MVPrior} {first last i j : Nat}
    (hi : i < norms.length) (hj : j < norms.length)
    (sh : Shapes data norms ts fixed weights scratch first last)
    (hp : ∀ k, InRange data.length first last k → val data k ≤ 0 ∨ 0 < modelAt norms ts fixed k) :
    hessianAt data norms ts fixed prior weights scratch first last i j =
      .ok (∑ k ∈ Finset.range (rangeStop data.length last - first),
        weightAt weights (first + k) *
          (if val data (first + k) ≤ 0 then 0
            else val data (first + k) /
              (modelAt norms ts fixed (first + k) * modelAt norms ts fixed (first + k))) *
          tmplAt ts i (first + k) * tmplAt ts j (first + k) +
        (prior.map (fun p => mat p.hessian i j)).getD 0) := by
  cases weights with
  | some w => exact hessian_weighted hi hj sh hp
  | none =>
    have hst := rangeStop_le sh.last
    rw [hessian_ones hi hj sh hp, hessian_weighted hi hj (shapes_ones sh) hp]
    congr 2
    refine Finset.sum_congr rfl fun k hk => ?_
    have hk := Finset.mem_range.1 hk
    rw [val_replicate (by omega)]; rfl

/-! ### derivatives -/

theorem shapes_set {data norms : List ℝ} {ts : List (List ℝ)} {fixed scratch : List ℝ}
    {weights : Option (List ℝ)} {first last i : Nat} {x : ℝ}
    (sh : Shapes data norms ts fixed weights scratch first last) :
    Shapes data (norms.set i x) ts fixed weights scratch first last :=
  ⟨sh.fixed, sh.scratch, by simpa using sh.norms, sh.templates, sh.weights, sh.first', sh.last⟩

theorem modelAt_set {norms : List ℝ} {ts : List (List ℝ)} {fixed : List ℝ} {i k : Nat} {x : ℝ}
    (h : i < norms.length) (h' : i < ts.length) :
    modelAt (norms.set i x) ts fixed k =
      modelAt norms ts fixed k + (x - val norms i) * tmplAt ts i k := by
  unfold modelAt tmplAt
  rw [tmplSum_set _ _ _ _ _ h h']; ring

theorem hasDerivAt_affine (m t x0 : ℝ) :
    HasDerivAt (fun x => m + (x - x0) * t) t x0 := by
  have h : HasDerivAt (fun x : ℝ => (x - x0) * t) (1 * t) x0 :=
    ((hasDerivAt_id x0).sub_const x0).mul_const t
  simpa using h.const_add m

theorem hasDerivAt_term {d m w t x0 : ℝ} (hm : (1e-9 : ℝ) < d * w → 0 < m) :
    HasDerivAt (fun x => term d (m + (x - x0) * t) w)
      ((if (1e-9 : ℝ) < d * w then d * w * (t / m) else 0) - t * w) x0 := by
  have ha := hasDerivAt_affine m t x0
  unfold term
  by_cases h : (1e-9 : ℝ) < d * w
  · simp only [if_pos h]
    have hm0 : m + (x0 - x0) * t ≠ 0 := by have := hm h; simp; linarith
    have hl := ha.log hm0
    simp only [sub_self, zero_mul, add_zero] at hl
    exact (hl.const_mul (d * w)).sub (ha.mul_const w)
  · simp only [if_neg h]
    exact (hasDerivAt_const x0 (0 : ℝ)).sub (ha.mul_const w)

theorem eventually_pos {m t x0 : ℝ} (h : 0 < m) :
    ∀ᶠ x in 𝓝 x0, 0 < m + (x - x0) * t := by
  have hc : Filter.Tendsto (fun x => m + (x - x0) * t) (𝓝 x0) (𝓝 (m + (x0 - x0) * t)) :=
    (hasDerivAt_affine m t x0).continuousAt
  refine hc.eventually (lt_mem_nhds ?_)
  simpa using h

/-- Derivative of a symmetric quadratic form. -/
theorem hasDerivAt_prior {p : MVPrior} (hs : SymPrior p) {norms : List ℝ} {i : Nat}
    (hi : i < norms.length) :
    HasDerivAt (fun x => p.logLikelihood (norms.set i x)) (-(p.gradient norms i)) (val norms i) := by
  have hx : norms.set i (val norms i) = norms := by rw [val_lt hi]; simp
  have hd : ∀ a, HasDerivAt (fun x => val (norms.set i x) a - val p.central a)
      (if a = i then 1 else 0) (val norms i) := by
    intro a
    simp only [val_set hi]
    by_cases ha : a = i
    · simp only [if_pos ha]; exact (hasDerivAt_id _).sub_const _
    · simp only [if_neg ha]; exact hasDerivAt_const _ _
  have h1 : HasDerivAt (fun x => ∑ a ∈ Finset.range norms.length, ∑ b ∈ Finset.range norms.length,
      (val (norms.set i x) a - val p.central a) * mat p.hessian a b *
        (val (norms.set i x) b - val p.central b))
      (∑ a ∈ Finset.range norms.length, ∑ b ∈ Finset.range norms.length,
        ((if a = i then 1 else 0) * mat p.hessian a b * (val norms b - val p.central b) +
        (val norms a - val p.central a) * mat p.hessian a b * (if b = i then 1 else 0)))
      (val norms i) := by
    refine HasDerivAt.fun_sum fun a _ => HasDerivAt.fun_sum fun b _ => ?_
    have := ((hd a).mul_const (mat p.hessian a b)).fun_mul (hd b)
    simpa [hx] using this
  have h2 := h1.const_mul (-(1 / 2) : ℝ)
  have h3 : (fun x => p.logLikelihood (norms.set i x)) = fun x => -(1 / 2) *
      ∑ a ∈ Finset.range norms.length, ∑ b ∈ Finset.range norms.length,
      (val (norms.set i x) a - val p.central a) * mat p.hessian a b *
        (val (norms.set i x) b - val p.central b) := by
    funext x; simp [MVPrior.logLikelihood]
  rw [h3]
  refine h2.congr_deriv ?_
  simp only [Finset.sum_add_distrib]
  have e1 : ∑ a ∈ Finset.range norms.length, ∑ b ∈ Finset.range norms.length,
      (if a = i then (1 : ℝ) else 0) * mat p.hessian a b * (val norms b - val p.central b) =
      p.gradient norms i := by
    rw [Finset.sum_eq_single i]
    · simp [MVPrior.gradient]
    · intro a _ ha; simp [ha]
    · intro h; exact absurd (Finset.mem_range.2 hi) h
  have e2 : ∑ a ∈ Finset.range norms.length, ∑ b ∈ Finset.range norms.length,
      (val norms a - val p.central a) * mat p.hessian a b * (if b = i then (1 : ℝ) else 0) =
      p.gradient norms i := by
    unfold MVPrior.gradient
    refine Finset.sum_congr rfl fun a _ => ?_
    rw [Finset.sum_eq_single i]
    · rw [hs a i]; simp; ring
    · intro b _ hb; simp [hb]
    · intro h; exact absurd (Finset.mem_range.2 hi) h
  rw [e1, e2]; ring

theorem hasDerivAt_priorGrad {p : MVPrior} {norms : List ℝ} {i j : Nat}
    (hj : j < norms.length) :
    HasDerivAt (fun x => p.gradient (norms.set j x) i) (mat p.hessian i j) (val norms j) := by
  have h1 : HasDerivAt (fun x => ∑ b ∈ Finset.range norms.length,
      mat p.hessian i b * (val (norms.set j x) b - val p.central b))
      (∑ b ∈ Finset.range norms.length, mat p.hessian i b * (if b = j then 1 else 0))
      (val norms j) := by
    refine HasDerivAt.fun_sum fun b _ => ?_
    refine HasDerivAt.const_mul _ ?_
    simp only [val_set hj]
    by_cases hb : b = j
    · simp only [if_pos hb]; exact (hasDerivAt_id _).sub_const _
    · simp only [if_neg hb]; exact hasDerivAt_const _ _
  have h3 : (fun x => p.gradient (norms.set j x) i) = fun x => ∑ b ∈ Finset.range norms.length,
      mat p.hessian i b * (val (norms.set j x) b - val p.central b) := by
    funext x; simp [MVPrior.gradient]
  rw [h3]
  refine h1.congr_deriv ?_
  simp [Finset.mem_range.2 hj, hj]

end Verif.FitUtils
