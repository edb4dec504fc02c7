import Verif.BackFile.Model
import Verif.BackFile.Spec
import Verif.Npred.Props
import Mathlib.Algebra.BigOperators.Ring.Finset
import Mathlib.Tactic.Linarith
import Mathlib.Tactic.FieldSimp
import Mathlib.Tactic.NormNum
/-
C113: background spectra for point sources.
-/
set_option linter.unusedSectionVars false
set_option linter.unusedSimpArgs false
set_option linter.unusedVariables false
namespace Verif.BackFile

variable {n : Src → ℝ → ℝ → ℝ} {d : Par → ℝ → ℝ → ℝ}

theorem counts_eq (t : Name) (lo hi : ℝ) (ss : List Src) (h : ∀ s ∈ ss, Spec.Known n d s) (c : ℝ) :
    counts t lo hi ss c = .ok (c + ((Spec.background t ss).map (fun s => n s lo hi)).sum) := by
  induction ss generalizing c with
  | nil => simp [counts, Spec.background]
  | cons s ss ih =>
    have ih' := ih (fun x hx => h x (List.mem_cons_of_mem _ hx))
    rw [counts]
    by_cases ht : s.name = t
    · rw [if_neg (by simp [ht]), ih']
      simp [Spec.background, ht]
    · rw [if_pos ht, (h s List.mem_cons_self).1]
      simp only [Res.bind_ok]
      rw [ih']
      simp [Spec.background, ht, add_assoc]

theorem variancePars_eq (lo hi : ℝ) (ps : List Par) (h : ∀ p ∈ ps, ∀ lo hi, p.deriv lo hi = .ok (d p lo hi))
    (v : ℝ) :
    variancePars lo hi ps v = .ok (v + (ps.map (fun p => (d p lo hi * p.error) ^ 2)).sum) := by
  induction ps generalizing v with
  | nil => simp [variancePars]
  | cons p ps ih =>
    rw [variancePars, h p List.mem_cons_self]
    simp only [Res.bind_ok]
    rw [ih (fun x hx => h x (List.mem_cons_of_mem _ hx)), List.map_cons, List.sum_cons]
    congr 1
    ring

theorem variance_eq (t : Name) (lo hi : ℝ) (ss : List Src) (h : ∀ s ∈ ss, Spec.Known n d s) (v : ℝ) :
    variance t lo hi ss v = .ok (v + (((Spec.background t ss).flatMap Src.pars).map
      (fun p => (d p lo hi * p.error) ^ 2)).sum) := by
  induction ss generalizing v with
  | nil => simp [variance, Spec.background]
  | cons s ss ih =>
    have ih' := ih (fun x hx => h x (List.mem_cons_of_mem _ hx))
    rw [variance]
    by_cases ht : s.name = t
    · rw [if_pos ht, ih']
      simp [Spec.background, ht]
    · rw [if_neg ht, variancePars_eq lo hi s.pars (h s List.mem_cons_self).2]
      simp only [Res.bind_ok]
      rw [ih']
      simp [Spec.background, ht, add_assoc]

theorem rate_eq (i : In) (f b t : ℝ) (ht : t ≠ 0) (h : ∀ s ∈ i.srcs, Spec.Known n d s) (e : ℝ × ℝ) :
    rate i f b t e = .ok
      (((Spec.background i.target i.srcs).map (fun s => n s (max e.1 f) (min e.2 b))).sum / t,
       Real.sqrt ((((Spec.background i.target i.srcs).flatMap Src.pars).map
        (fun p => (d p (max e.1 f) (min e.2 b) * p.error) ^ 2)).sum) / t) := by
  unfold rate npredError over
  simp only
  rw [counts_eq _ _ _ _ h, variance_eq _ _ _ _ h]
  simp only [Res.bind_ok, zero_add, ht, if_false]

theorem rates_eq (i : In) (f b t : ℝ) (ht : t ≠ 0) (h : ∀ s ∈ i.srcs, Spec.Known n d s)
    (es : List (ℝ × ℝ)) :
    rates i f b t es = .ok (es.map (fun e =>
      (((Spec.background i.target i.srcs).map (fun s => n s (max e.1 f) (min e.2 b))).sum / t,
       Real.sqrt ((((Spec.background i.target i.srcs).flatMap Src.pars).map
        (fun p => (d p (max e.1 f) (min e.2 b) * p.error) ^ 2)).sum) / t))) := by
  induction es with
  | nil => rfl
  | cons e es ih => rw [rates, rate_eq i f b t ht h, ih]; rfl

theorem writeRows_eq (rows rs : List (ℝ × ℝ)) (h : rows.length = rs.length) :
    writeRows rows rs = (rs, .ok ()) := by
  induction rows generalizing rs with
  | nil =>
    cases rs with
    | nil => rfl
    | cons r rs => simp at h
  | cons x rows ih =>
    cases rs with
    | nil => simp at h
    | cons r rs => rw [writeRows, ih rs (by simpa using h)]

/-- If the counts of the sources can be computed for every range, gtbkg writes for each bin the
rate of all sources but the target, restricted to the energies of the region of interest, so that
rate times exposure time is the number of counts expected, and the square root of the sum of the
squares of derivative times error.  The bins and the exposure time are those of the input, whose
keyword then names the output; the rest of the input is unchanged. -/
theorem C113_rates_partial (i : In) (front back t : ℝ) (h : ∀ s ∈ i.srcs, Spec.Known n d s)
    (hf : i.energies.head? = some front) (hb : i.energies.getLast? = some back)
    (ht : i.pha.exposure = some t) (ht0 : 0 < t) (hl : i.pha.rows.length = i.pha.ebounds.length) :
    ∃ out, run i = ⟨{ i.pha with backfile := some i.outName }, some out, .ok ()⟩ ∧
      out.ebounds = i.pha.ebounds ∧ out.exposure = i.pha.exposure ∧ out.column = "RATE".toList ∧
      out.rows.length = i.pha.ebounds.length ∧
      ∀ (k : Nat) (b : ℝ × ℝ), i.pha.ebounds[k]? = some b →
        ∃ r e, out.rows[k]? = some (r, e) ∧
          r * t = ((Spec.background i.target i.srcs).map (fun s =>
            n s (Spec.clipped front back b).1 (Spec.clipped front back b).2)).sum ∧
          0 ≤ e ∧ (e * t) ^ 2 = (((Spec.background i.target i.srcs).flatMap Src.pars).map (fun p =>
            (d p (Spec.clipped front back b).1 (Spec.clipped front back b).2 * p.error) ^ 2)).sum := by
  have hr : allRates i = .ok ((getEbounds i.pha).map (fun e =>
      (((Spec.background i.target i.srcs).map (fun s => n s (max e.1 front) (min e.2 back))).sum / t,
       Real.sqrt ((((Spec.background i.target i.srcs).flatMap Src.pars).map
        (fun p => (d p (max e.1 front) (min e.2 back) * p.error) ^ 2)).sum) / t))) := by
    unfold allRates
    rw [ht, hf, hb]
    simp only
    cases hg : getEbounds i.pha with
    | nil => rfl
    | cons x xs => exact rates_eq i front back t ht0.ne' h _
  have hg : getEbounds i.pha = i.pha.ebounds.map (fun b => (b.1 / 1000, b.2 / 1000)) := by
    unfold getEbounds
    norm_num
  unfold run
  rw [hr]
  simp only
  rw [writeRows_eq _ _ (by simp [getEbounds, hl])]
  refine ⟨_, rfl, rfl, rfl, rfl, by simp [getEbounds], fun k b hk => ?_⟩
  rw [hg, List.map_map, List.getElem?_map, hk]
  refine ⟨_, _, rfl, ?_, ?_, ?_⟩
  · simp only [Function.comp, Spec.clipped]
    field_simp
  · exact div_nonneg (Real.sqrt_nonneg _) ht0.le
  · simp only [Function.comp, Spec.clipped]
    rw [div_mul_cancel₀ _ ht0.ne', Real.sq_sqrt]
    apply List.sum_nonneg
    intro x hx
    obtain ⟨p, _, rfl⟩ := List.mem_map.1 hx
    positivity

/-- Two sources, one of them the target, and one bin. -/
noncomputable def exampleIn : In where
  pha := ⟨[(100000, 200000)], [(7, 1)], "COUNTS".toList, some 10, none⟩
  energies := [50, 1000]
  srcs := [⟨['t'], fun a b => .ok (b - a), []⟩, ⟨['b'], fun a b => .ok (2 * (b - a)), [⟨1, fun a b => .ok (b - a)⟩]⟩]
  target := ['t']
  outName := ['o']

example : ∃ (n : Src → ℝ → ℝ → ℝ) (d : Par → ℝ → ℝ → ℝ), (∀ s ∈ exampleIn.srcs, Spec.Known n d s) ∧
    exampleIn.energies.head? = some 50 ∧ exampleIn.energies.getLast? = some 1000 ∧
    exampleIn.pha.exposure = some 10 ∧ exampleIn.pha.rows.length = exampleIn.pha.ebounds.length := by
  refine ⟨fun s a b => if s.name = ['t'] then b - a else 2 * (b - a), fun _ a b => b - a, ?_, rfl, rfl,
    rfl, rfl⟩
  intro s hs
  rcases List.mem_cons.1 hs with rfl | hs
  · exact ⟨fun lo hi => rfl, fun p hp => by cases hp⟩
  · rcases List.mem_cons.1 hs with rfl | hs
    · refine ⟨fun lo hi => rfl, fun p hp => ?_⟩
      rcases List.mem_cons.1 hp with rfl | hp
      · exact fun lo hi => rfl
      · cases hp
    · cases hs

/-- For uncorrelated parameters the sum of squares is the variance of the expected counts. -/
theorem C113_error_partial (g σ : List ℝ) (h : g.length = σ.length) :
    ((g.zip σ).map (fun p => (p.1 * p.2) ^ 2)).sum =
      Spec.variance g (fun i j => if i = j then σ.getD i 0 ^ 2 else 0) := by
  have hs : Spec.variance g (fun i j => if i = j then σ.getD i 0 ^ 2 else 0) =
      ∑ i ∈ Finset.range g.length, (g.getD i 0 * σ.getD i 0) ^ 2 := by
    unfold Spec.variance
    apply Finset.sum_congr rfl
    intro i hi
    rw [Finset.sum_eq_single i]
    · simp only [if_true]; ring
    · intro j _ hj
      simp only [if_neg (Ne.symm hj)]; ring
    · intro hn; exact absurd hi hn
  rw [hs]
  clear hs
  induction g generalizing σ with
  | nil => simp
  | cons a g ih =>
    cases σ with
    | nil => simp at h
    | cons b σ =>
      rw [List.zip_cons_cons, List.map_cons, List.sum_cons, ih σ (by simpa using h),
        List.length_cons, Finset.sum_range_succ']
      simp [add_comm]

example : ([1, 2] : List ℝ).length = ([3, 4] : List ℝ).length := rfl

/-- Correlations are ignored: for a background of one source with two parameters whose effects
cancel exactly, the variance of the counts is zero, but the error written is not. -/
theorem C113_error_violates :
    ∃ (i : In) (out : Pha) (r e : ℝ) (cov : Nat → Nat → ℝ), cov 0 0 = 1 ∧ cov 1 1 = 1 ∧
      (∀ s ∈ i.srcs, s.pars.map Par.error = [1, 1] ∧
        ∀ lo hi, s.pars.map (fun p => p.deriv lo hi) = [.ok 1, .ok 1]) ∧ i.srcs.length = 1 ∧
      Spec.variance [1, 1] cov = 0 ∧ (run i).output = some out ∧ (run i).result = .ok () ∧
      out.rows = [(r, e)] ∧ 0 < e := by
  refine ⟨⟨⟨[(100000, 200000)], [(7, 1)], "COUNTS".toList, some 1, none⟩, [50, 1000],
    [⟨['b'], fun _ _ => .ok 5, [⟨1, fun _ _ => .ok 1⟩, ⟨1, fun _ _ => .ok 1⟩]⟩], ['t'], ['o']⟩, ?_⟩
  have hk : ∀ s ∈ ([⟨['b'], fun _ _ => .ok 5, [⟨1, fun _ _ => .ok 1⟩, ⟨1, fun _ _ => .ok 1⟩]⟩] : List Src),
      Spec.Known (fun _ _ _ => 5) (fun _ _ _ => 1) s := by
    intro s hs
    rw [List.mem_singleton] at hs
    subst hs
    refine ⟨fun lo hi => rfl, fun p hp => ?_⟩
    rcases List.mem_cons.1 hp with rfl | hp
    · exact fun lo hi => rfl
    · rw [List.mem_singleton] at hp
      subst hp
      exact fun lo hi => rfl
  obtain ⟨out, h1, _, _, _, h2, h3⟩ := C113_rates_partial (n := fun _ _ _ => 5) (d := fun _ _ _ => 1)
    ⟨⟨[(100000, 200000)], [(7, 1)], "COUNTS".toList, some 1, none⟩, [50, 1000],
    [⟨['b'], fun _ _ => .ok 5, [⟨1, fun _ _ => .ok 1⟩, ⟨1, fun _ _ => .ok 1⟩]⟩], ['t'], ['o']⟩
    50 1000 1 hk rfl rfl rfl one_pos rfl
  obtain ⟨r, e, h4, _, h5, h6⟩ := h3 0 _ rfl
  refine ⟨out, r, e, fun i j => if i = j then 1 else -1, by simp, by simp, ?_, rfl, ?_, by rw [h1],
    by rw [h1], ?_, ?_⟩
  · intro s hs
    rw [List.mem_singleton] at hs
    subst hs
    exact ⟨rfl, fun _ _ => rfl⟩
  · simp [Spec.variance, Finset.sum_range_succ]
  · have hl : out.rows.length = 1 := h2
    obtain ⟨x, hx⟩ := List.length_eq_one_iff.1 hl
    rw [hx] at h4 ⊢
    cases h4
    rfl
  · rcases h5.lt_or_eq with h | h
    · exact h
    · exfalso
      rw [← h] at h6
      have h7 : (0 * 1 : ℝ) ^ 2 = (([1, 1] : List ℝ).map (fun x => (1 * x) ^ 2)).sum := h6
      norm_num at h7

/-- A bin above the energies of the region of interest has a negative rate: the counts of the
source are those of `Source::Npred` for a region of two decades, constant exposure and spectrum. -/
theorem C113_outside_violates {E X : List ℝ} {e0 q : ℝ} (g : Npred.Spec.LogGrid E e0 q) {c : ℝ} (hc : 0 < c)
    (hX : X = (List.range E.length).map fun _ => c) {S : ℝ → ℝ} (hS : ∀ e, 0 < S e) {emin emax : ℝ}
    (h1 : emin ≤ emax) (h2 : e0 * q ^ (E.length - 1) < emin) (h3 : emin < e0 * q ^ E.length)
    (t : ℝ) (ht : 0 < t) :
    ∃ out r e, run ⟨⟨[(emin * 1000, emax * 1000)], [(0, 0)], "COUNTS".toList, some t, none⟩, E,
        [⟨['b'], Npred.npredRange E X S, []⟩], ['t'], ['o']⟩ =
        ⟨⟨[(emin * 1000, emax * 1000)], [(0, 0)], "COUNTS".toList, some t, some ['o']⟩, some out, .ok ()⟩ ∧
      out.rows = [(r, e)] ∧ r < 0 := by
  obtain ⟨v, hv, hneg⟩ := (Npred.C95_above_violates g hc hX hS h1 h2).1 h3
  rw [Npred.C95_clipped g] at hv
  have hne : E ≠ [] := by
    intro h; have := g.two; rw [h] at this; simp at this
  have hfront : E.head? = some e0 := by
    have := g.front
    rw [vget_eq_ok] at this
    rw [List.head?_eq_getElem?, this]
  have hback : E.getLast? = some (e0 * q ^ (E.length - 1)) := by
    have := g.back
    rw [vget_eq_ok] at this
    rw [List.getLast?_eq_getElem?, this]
  have hr : allRates ⟨⟨[(emin * 1000, emax * 1000)], [(0, 0)], "COUNTS".toList, some t, none⟩, E,
        [⟨['b'], Npred.npredRange E X S, []⟩], ['t'], ['o']⟩ = .ok [(v / t, 0)] := by
    unfold allRates getEbounds
    simp only [List.map_cons, List.map_nil, hfront, hback]
    unfold rates rate
    have hb : emin * 1000 / 1e3 = emin := by norm_num
    have hb' : emax * 1000 / 1e3 = emax := by norm_num
    simp only [hb, hb']
    rw [max_comm emin, min_comm emax]
    simp only [counts]
    rw [if_pos (by decide)]
    rw [hv]
    simp [over, ht.ne', npredError, variance, variancePars, rates]
  refine ⟨⟨[(emin * 1000, emax * 1000)], [(v / t, 0)], "RATE".toList, some t, none⟩, v / t, 0, ?_, rfl,
    div_neg_of_neg_of_pos hneg ht⟩
  unfold run
  rw [hr]
  rfl

/-- The region from 1 to 16 MeV and a bin from 20 to 30 MeV. -/
example : ∃ (E : List ℝ) (e0 q : ℝ), Npred.Spec.LogGrid E e0 q ∧ e0 * q ^ (E.length - 1) < 20 ∧
    (20 : ℝ) < e0 * q ^ E.length :=
  ⟨[1, 4, 16], 1, 4, Npred.grid3, by norm_num, by norm_num⟩

/-- A bin far above the energies of the region of interest ends the run with an exception, and
leaves as output a copy of the input with its counts. -/
theorem C113_failed_violates {E X : List ℝ} {e0 q : ℝ} (g : Npred.Spec.LogGrid E e0 q) {c : ℝ} (hc : 0 < c)
    (hX : X = (List.range E.length).map fun _ => c) {S : ℝ → ℝ} (hS : ∀ e, 0 < S e) {emin emax : ℝ}
    (h1 : emin ≤ emax) (h3 : e0 * q ^ E.length ≤ emin) (t x y : ℝ) :
    ∃ i : In, i.energies = E ∧ i.srcs = [⟨['b'], Npred.npredRange E X S, []⟩] ∧
      i.pha = ⟨[(emin * 1000, emax * 1000)], [(x, y)], "COUNTS".toList, some t, none⟩ ∧
      (run i).result = .throws ∧ (run i).output = some i.pha ∧ (run i).input = i.pha := by
  have h2 : e0 * q ^ (E.length - 1) < emin := by
    refine lt_of_lt_of_le ?_ h3
    have hn := g.two
    have : E.length - 1 < E.length := by omega
    exact mul_lt_mul_of_pos_left (pow_lt_pow_right₀ g.ratio this) g.pos
  have hv := (Npred.C95_above_violates g hc hX hS h1 h2).2 h3
  rw [Npred.C95_clipped g] at hv
  have hfront : E.head? = some e0 := by
    have := g.front
    rw [vget_eq_ok] at this
    rw [List.head?_eq_getElem?, this]
  have hback : E.getLast? = some (e0 * q ^ (E.length - 1)) := by
    have := g.back
    rw [vget_eq_ok] at this
    rw [List.getLast?_eq_getElem?, this]
  refine ⟨⟨⟨[(emin * 1000, emax * 1000)], [(x, y)], "COUNTS".toList, some t, none⟩, E,
        [⟨['b'], Npred.npredRange E X S, []⟩], ['t'], ['o']⟩, rfl, rfl, rfl, ?_⟩
  have hr : allRates ⟨⟨[(emin * 1000, emax * 1000)], [(x, y)], "COUNTS".toList, some t, none⟩, E,
        [⟨['b'], Npred.npredRange E X S, []⟩], ['t'], ['o']⟩ = .throws := by
    unfold allRates getEbounds
    simp only [List.map_cons, List.map_nil, hfront, hback]
    unfold rates rate
    have hb : emin * 1000 / 1e3 = emin := by norm_num
    have hb' : emax * 1000 / 1e3 = emax := by norm_num
    simp only [hb, hb']
    rw [max_comm emin, min_comm emax]
    simp only [counts]
    rw [if_pos (by decide)]
    rw [hv]
    rfl
  unfold run
  rw [hr]
  exact ⟨rfl, rfl, rfl⟩

example : ∃ (E : List ℝ) (e0 q : ℝ), Npred.Spec.LogGrid E e0 q ∧ e0 * q ^ E.length ≤ 100 :=
  ⟨[1, 4, 16], 1, 4, Npred.grid3, by norm_num⟩

theorem writeRows_short (rows rs : List (ℝ × ℝ)) (h : rs.length < rows.length) :
    writeRows rows rs = (rs ++ rows.drop rs.length, .throws) := by
  induction rows generalizing rs with
  | nil => simp at h
  | cons x rows ih =>
    cases rs with
    | nil => rfl
    | cons r rs => rw [writeRows, ih rs (by simpa using h)]; rfl

/-- If the spectrum has more rows than there are bins, the run ends with an exception and leaves
an output whose last rows are the counts of the input under the name of a rate. -/
theorem C113_rows_violates (i : In) (front back t : ℝ) (h : ∀ s ∈ i.srcs, Spec.Known n d s)
    (hf : i.energies.head? = some front) (hb : i.energies.getLast? = some back)
    (ht : i.pha.exposure = some t) (ht0 : 0 < t) (hl : i.pha.ebounds.length < i.pha.rows.length) :
    (run i).result = .throws ∧ (run i).input = i.pha ∧
    ∃ out, (run i).output = some out ∧ out.column = "RATE".toList ∧
      ∀ k, i.pha.ebounds.length ≤ k → out.rows[k]? = i.pha.rows[k]? := by
  have hr : ∃ rs, allRates i = .ok rs ∧ rs.length = i.pha.ebounds.length := by
    unfold allRates
    rw [ht, hf, hb]
    simp only
    cases hg : getEbounds i.pha with
    | nil =>
      refine ⟨[], rfl, ?_⟩
      have : (getEbounds i.pha).length = i.pha.ebounds.length := by simp [getEbounds]
      rw [← this, hg]
    | cons x xs =>
      refine ⟨_, rates_eq i front back t ht0.ne' h _, ?_⟩
      have : (getEbounds i.pha).length = i.pha.ebounds.length := by simp [getEbounds]
      rw [List.length_map, ← this, hg]
  obtain ⟨rs, hr, hrl⟩ := hr
  unfold run
  rw [hr]
  simp only
  rw [writeRows_short _ _ (by omega)]
  refine ⟨rfl, rfl, _, rfl, rfl, fun k hk => ?_⟩
  simp only
  rw [List.getElem?_append_right (by omega), List.getElem?_drop]
  congr 1
  omega

example : (exampleIn.pha).ebounds.length <
    ({ exampleIn.pha with rows := [(1, 0), (2, 0)] } : Pha).rows.length := by
  show 1 < 2
  omega

end Verif.BackFile
