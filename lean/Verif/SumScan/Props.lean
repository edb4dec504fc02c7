import Verif.SumScan.Lemmas2
import Verif.SumScan.Spec
import Mathlib.Tactic.NormNum
import Mathlib.Tactic.Linarith
import Mathlib.Tactic.FieldSimp
import Mathlib.Analysis.Complex.ExponentialBounds
import Mathlib.Algebra.BigOperators.Intervals

set_option linter.unusedSimpArgs false
set_option linter.unusedVariables false
set_option linter.unusedSectionVars false

/-!
# Scans of a sum of likelihoods
-/

namespace Verif.SumScan

open FitMerge (Merged)
open FitUtils (getLogLikelihood)
open Spec

variable {N : Type}

theorem mem_places {ps : List (Part N)} {q : Nat × Nat} (h : q ∈ places ps) :
    ∃ p, ps[q.1]? = some p ∧ p ∈ ps ∧ q.2 < p.npix * (p.edges.length - 1) := by
  unfold places at h
  rw [List.mem_flatMap] at h
  obtain ⟨⟨p, c⟩, hpc, hq⟩ := h
  rw [List.mem_map] at hq
  obtain ⟨i, hi, rfl⟩ := hq
  rw [List.mem_zipIdx_iff_getElem?] at hpc
  exact ⟨p, hpc, List.mem_of_getElem? hpc, by simpa using hi⟩

theorem places_sum (H : Nat × Nat → ℝ) (K : Part N → Nat → ℝ) : ∀ (ps : List (Part N)) (s : Nat),
    (∀ j p, ps[j]? = some p → ∀ i, H (s + j, i) = K p i) →
    (((ps.zipIdx s).flatMap fun pc =>
      (List.range (pc.1.npix * (pc.1.edges.length - 1))).map fun i => (pc.2, i)).map H).sum =
      (ps.map fun p => ((List.range (p.npix * (p.edges.length - 1))).map (K p)).sum).sum
  | [], s, _ => by simp
  | p :: ps, s, h => by
    rw [List.zipIdx_cons, List.flatMap_cons, List.map_append, List.sum_append,
      places_sum H K ps (s + 1) (by
        intro j q hq i
        rw [← h (j + 1) q (by simpa using hq) i]
        congr 2
        omega), List.map_cons, List.sum_cons, List.map_map]
    congr 2
    apply List.map_congr_left
    intro i _
    have := h 0 p (by simp) i
    rw [Nat.add_zero] at this
    exact this

theorem tmplSum_eq (k : Nat) : ∀ (ns : List ℝ) (ts : List (List ℝ)),
    FitUtils.Spec.tmplSum ns ts k = ((ns.zip ts).map fun nt => nt.1 * at' nt.2 k).sum
  | [], ts => by cases ts <;> simp [FitUtils.Spec.tmplSum]
  | n :: ns, [] => by simp [FitUtils.Spec.tmplSum]
  | n :: ns, t :: ts => by
    simp [FitUtils.Spec.tmplSum, tmplSum_eq k ns ts]
    left
    rfl

theorem sum_range_map (G : Nat → ℝ) (n : Nat) :
    (∑ k ∈ Finset.Ico 0 n, G k) = ((List.range n).map G).sum := by
  rw [Finset.sum_Ico_eq_sum_range]
  simp only [Nat.sub_zero, Nat.zero_add]
  rw [Finset.sum_range, ← List.sum_ofFn]
  congr 1
  rw [List.ofFn_eq_map, List.finRange_eq_pmap_range]
  simp [List.map_pmap]

/-- A component whose sources have the names of another one. -/
def renamed (p0 p : Part N) : Part N := { p with names := p0.names }

theorem at_map (ord : List (Nat × Nat)) (f : Nat × Nat → ℝ) {k : Nat} (h : k < ord.length) :
    at' (ord.map f) k = f ord[k] := by
  unfold at'
  simp [List.getElem?_eq_getElem h]

/-- The logarithm of the likelihood of a sum, given what the merged vectors are. -/
theorem value_ok (uw : Bool) (p0 : Part N) (ps : List (Part N)) (hg : ∀ p ∈ ps, Good p)
    (hn0 : p0.names.length = p0.templates.length)
    (hn : ∀ p ∈ ps, p.templates.length = p0.templates.length)
    (ord : List (Nat × Nat)) (hperm : ord.Perm (places ps)) (norm : N → ℝ) (tn : ℝ)
    (scratch : List ℝ) (hs : scratch.length = ord.length)
    (hadm : ∀ p ∈ ps, Admissible uw (renamed p0 p) norm tn) :
    getLogLikelihood (ord.map (numAt ps Part.data)) (p0.names.map norm ++ [tn])
      (((List.range p0.templates.length).map fun j =>
        ord.map (numAt ps fun p => p.templates[j]?.getD [])) ++ [ord.map (numAt ps Part.test)])
      (ord.map (numAt ps Part.fixed)) none
      (if uw then some (ord.map (numAt ps Part.weights)) else none) scratch 0 0 =
      .ok (ps.map fun p => logLike uw (renamed p0 p) norm tn).sum := by
  set ns := p0.names.map norm ++ [tn] with hns
  set ts := ((List.range p0.templates.length).map fun j =>
        ord.map (numAt ps fun p => p.templates[j]?.getD [])) ++ [ord.map (numAt ps Part.test)] with hts
  set ws := (if uw then some (ord.map (numAt ps Part.weights)) else none) with hws
  have hplace : ∀ k (hk : k < ord.length), ∃ p, ps[ord[k].1]? = some p ∧ p ∈ ps ∧
      ord[k].2 < p.npix * (p.edges.length - 1) := fun k hk =>
    mem_places (hperm.subset (List.getElem_mem hk))
  have hnum : ∀ k (hk : k < ord.length) (g : Part N → List ℝ) p, ps[ord[k].1]? = some p →
      at' (ord.map (numAt ps g)) k = at' (g p) ord[k].2 := by
    intro k hk g p hp
    rw [at_map _ _ hk]
    exact numAt_eq (c := ord[k].1) (i := ord[k].2) hp
  have hmodel : ∀ k (hk : k < ord.length) p, ps[ord[k].1]? = some p → p ∈ ps →
      FitUtils.Spec.modelAt ns ts (ord.map (numAt ps Part.fixed)) k =
        predicted (renamed p0 p) norm tn ord[k].2 := by
    intro k hk p hp hpm
    unfold FitUtils.Spec.modelAt predicted
    rw [tmplSum_eq, hns, hts, List.zip_append (by simp [hn0])]
    rw [List.map_append, List.sum_append]
    have h1 := hnum k hk Part.fixed p hp
    have h2 := hnum k hk Part.test p hp
    have h3 : (((p0.names.map norm).zip ((List.range p0.templates.length).map fun j =>
        ord.map (numAt ps fun p => p.templates[j]?.getD []))).map fun nt => nt.1 * at' nt.2 k) =
        ((p0.names.zip p.templates).map fun nt => norm nt.1 * at' nt.2 ord[k].2) := by
      apply List.ext_getElem
      · simp [hn p hpm]
      · intro j hj1 hj2
        simp only [List.getElem_map, List.getElem_zip, List.getElem_range]
        rw [hnum k hk _ p hp]
        have : j < p.templates.length := by simp at hj2; omega
        simp [List.getElem?_eq_getElem this]
    rw [h3]
    have h1' : FitUtils.val (ord.map (numAt ps Part.fixed)) k = at' p.fixed ord[k].2 := h1
    rw [h1']
    simp only [List.zip_cons_cons, List.zip_nil_right, List.map_cons, List.map_nil, List.sum_cons,
      List.sum_nil, h2]
    simp only [renamed]
    ring
  have hweight : ∀ k (hk : k < ord.length) p, ps[ord[k].1]? = some p →
      FitUtils.Spec.weightAt ws k = if uw then at' p.weights ord[k].2 else 1 := by
    intro k hk p hp
    cases uw
    · rfl
    · exact hnum k hk Part.weights p hp
  have hsh : FitUtils.Spec.Shapes (ord.map (numAt ps Part.data)) ns ts (ord.map (numAt ps Part.fixed))
      ws scratch 0 0 := by
    refine ⟨by simp, by simp [hs], by simp [hns, hts, hn0], ?_, ?_, by simp, by simp⟩
    · intro t ht
      rw [hts] at ht
      simp only [List.mem_append, List.mem_map, List.mem_singleton] at ht
      rcases ht with ⟨j, -, rfl⟩ | rfl <;> simp
    · intro w hw
      rw [hws] at hw
      cases uw
      · simp at hw
      · simp at hw
        subst hw
        simp
  rw [FitUtils.C09_value _ _ _ _ _ _ _ _ _ hsh]
  · simp only [if_true, List.length_map, Option.map_none, Option.getD_none, add_zero]
    rw [sum_range_map]
    congr 1
    set H : Nat × Nat → ℝ := fun q => term (numAt ps Part.data q)
      (if uw then numAt ps Part.weights q else 1)
      (match ps[q.1]? with
        | some p => predicted (renamed p0 p) norm tn q.2
        | none => 0) with hH
    have hHe : ∀ c i p, ps[c]? = some p → H (c, i) = term (at' p.data i)
        (if uw then at' p.weights i else 1) (predicted (renamed p0 p) norm tn i) := by
      intro c i p hp
      rw [hH]
      simp only [hp]
      rw [numAt_eq hp, numAt_eq hp]
    have e1 : ((List.range ord.length).map fun k =>
        ((if (1e-9 : ℝ) < FitUtils.val (ord.map (numAt ps Part.data)) k * FitUtils.Spec.weightAt ws k then
            FitUtils.val (ord.map (numAt ps Part.data)) k * FitUtils.Spec.weightAt ws k *
              Real.log (FitUtils.Spec.modelAt ns ts (ord.map (numAt ps Part.fixed)) k) else 0) -
          FitUtils.Spec.modelAt ns ts (ord.map (numAt ps Part.fixed)) k *
            FitUtils.Spec.weightAt ws k)) = ord.map H := by
      apply List.ext_getElem
      · simp
      · intro k hk1 hk2
        have hk : k < ord.length := by simpa using hk2
        obtain ⟨p, hp, hpm, -⟩ := hplace k hk
        simp only [List.getElem_map, List.getElem_range]
        rw [hmodel k hk p hp hpm, hweight k hk p hp]
        have hd : FitUtils.val (ord.map (numAt ps Part.data)) k = at' p.data ord[k].2 :=
          hnum k hk Part.data p hp
        have he : H ord[k] = _ := hHe ord[k].1 ord[k].2 p hp
        rw [hd, he]
        unfold term
        split_ifs <;> rfl
    rw [e1, (hperm.map H).sum_eq]
    unfold places
    rw [places_sum H (fun p i => term (at' p.data i) (if uw then at' p.weights i else 1)
      (predicted (renamed p0 p) norm tn i)) ps 0]
    · congr 1
      apply List.map_congr_left
      intro p hp
      unfold logLike
      rw [show (renamed p0 p).data = p.data from rfl, (hg p hp).data]
      rfl
    · intro j p hp i
      rw [Nat.zero_add]
      exact hHe j i p hp
  · intro k hk
    have hk' : k < ord.length := by
      have := hk.2
      simpa [FitUtils.Spec.lastSel] using this
    obtain ⟨p, hp, hpm, hlt⟩ := hplace k hk'
    have ha := hadm p hpm ord[k].2 (by
      rw [show (renamed p0 p).data = p.data from rfl, (hg p hpm).data]; exact hlt)
    rw [hmodel k hk' p hp hpm, hweight k hk' p hp]
    have hd : FitUtils.val (ord.map (numAt ps Part.data)) k = at' p.data ord[k].2 :=
      hnum k hk' Part.data p hp
    rw [hd]
    exact ha

/-- What a scan of a sum computes. -/
theorem setup_value (uw : Bool) (p0 : Part N) (qs : List (Part N)) (hg : ∀ p ∈ p0 :: qs, Good p)
    (ha : Apart (p0 :: qs)) (hn : ∀ p ∈ qs, p.templates.length = p0.templates.length) :
    ∃ m x, setup uw (p0 :: qs) = .ok (m, x) ∧ x.names = p0.names ∧ x.refs = p0.refs ∧
      x.templates.length = p0.templates.length ∧
      m.data.length = ((p0 :: qs).map fun p => p.data.length).sum ∧
      ∀ (norm : N → ℝ) (tn : ℝ) (scratch : List ℝ), scratch.length = m.data.length →
        (∀ p ∈ p0 :: qs, Admissible uw (renamed p0 p) norm tn) →
        getLogLikelihood m.data (x.names.map norm ++ [tn]) (x.templates ++ [x.test]) x.fixed none
          x.weights scratch 0 0 =
          .ok ((p0 :: qs).map fun p => logLike uw (renamed p0 p) norm tn).sum := by
  obtain ⟨ord, m, x, hperm, hset, hdata, h1, h2, h3, h4, h5, h6⟩ := setup_ok uw p0 qs hg ha hn
  refine ⟨m, x, hset, h1, h2, by simp [h3], ?_, ?_⟩
  · rw [hdata, List.length_map, hperm.length_eq]
    unfold places
    rw [List.length_flatMap]
    have e : ((p0 :: qs).map fun p => p.data.length) =
        (p0 :: qs).map fun p => p.npix * (p.edges.length - 1) :=
      List.map_congr_left fun p hp => (hg p hp).data
    rw [e]
    have e2 : ∀ (l : List (Part N)) (s : Nat), ((l.zipIdx s).map fun pc =>
        ((List.range (pc.1.npix * (pc.1.edges.length - 1))).map fun i => (pc.2, i)).length).sum =
        (l.map fun p => p.npix * (p.edges.length - 1)).sum := by
      intro l
      induction l with
      | nil => intro s; simp
      | cons p l ih => intro s; rw [List.zipIdx_cons, List.map_cons, List.sum_cons, ih]; simp
    exact e2 _ _
  · intro norm tn scratch hs hadm
    rw [hdata, h1, h3, h4, h5, h6]
    refine value_ok uw p0 (p0 :: qs) hg (hg p0 (by simp)).names ?_ ord hperm norm tn scratch ?_ hadm
    · intro p hp
      rcases List.mem_cons.1 hp with rfl | hp
      · rfl
      · exact hn p hp
    · rw [hs, hdata, List.length_map]

/-! ### C141 -/

/-- C141, the sum: components whose free sources have the same names in the same order, with energies
that are equal or apart.  For all normalisations the scan computes the sum of the logarithms of the
likelihoods of the components. -/
theorem C141_sum (uw : Bool) (p0 : Part N) (qs : List (Part N)) (hg : ∀ p ∈ p0 :: qs, Good p)
    (ha : Apart (p0 :: qs)) (hn : ∀ p ∈ qs, p.names = p0.names) :
    ∃ m x, setup uw (p0 :: qs) = .ok (m, x) ∧ x.names = p0.names ∧ x.refs = p0.refs ∧
      x.templates.length = p0.templates.length ∧
      m.data.length = ((p0 :: qs).map fun p => p.data.length).sum ∧
      ∀ (norm : N → ℝ) (tn : ℝ) (scratch : List ℝ), scratch.length = m.data.length →
        (∀ p ∈ p0 :: qs, Admissible uw p norm tn) →
        getLogLikelihood m.data (x.names.map norm ++ [tn]) (x.templates ++ [x.test]) x.fixed none
          x.weights scratch 0 0 = .ok ((p0 :: qs).map fun p => logLike uw p norm tn).sum := by
  have hr : ∀ p ∈ p0 :: qs, renamed p0 p = p := by
    intro p hp
    have : p.names = p0.names := by
      rcases List.mem_cons.1 hp with rfl | hp
      · rfl
      · exact hn p hp
    unfold renamed
    rw [← this]
  obtain ⟨m, x, h1, h2, h3, h4, h5, h6⟩ := setup_value uw p0 qs hg ha (by
    intro p hp
    rw [← (hg p (by simp [hp])).names, ← (hg p0 (by simp)).names, hn p hp])
  refine ⟨m, x, h1, h2, h3, h4, h5, ?_⟩
  intro norm tn scratch hs hadm
  rw [h6 norm tn scratch hs (fun p hp => by rw [hr p hp]; exact hadm p hp)]
  congr 2
  exact List.map_congr_left fun p hp => by rw [hr p hp]

/-- A component with one bin and one pixel. -/
noncomputable def one (n : N) (t : ℝ) : Part N := ⟨[1, 10], 1, [3], [n], [[t]], [1], [1 / 2], [1], [1]⟩

theorem one_good (n : N) (t : ℝ) : Good (one n t) := by
  refine ⟨?_, ?_, ?_, rfl, ?_, rfl, rfl, rfl, rfl, rfl⟩
  · norm_num [one]
  · intro e he
    simp only [one, List.mem_cons, List.not_mem_nil, or_false] at he
    rcases he with rfl | rfl <;> norm_num
  · simp [one]
  · intro t' ht
    simp only [one, List.mem_singleton] at ht
    subst ht
    rfl

theorem one_apart (a b : N) (s t : ℝ) : Apart [one a s, one b t] := by
  intro p hp q hq x hx y hy h
  simp only [List.mem_cons, List.not_mem_nil, or_false] at hp hq
  have hx' : x = 1 ∨ x = 10 := by rcases hp with rfl | rfl <;> simpa [one] using hx
  have hy' : y = 1 ∨ y = 10 := by rcases hq with rfl | rfl <;> simpa [one] using hy
  rcases hx' with rfl | rfl <;> rcases hy' with rfl | rfl <;> first | rfl | (norm_num at h)

theorem one_predicted (n : N) (t : ℝ) (norm : N → ℝ) (tn : ℝ) :
    predicted (one n t) norm tn 0 = 1 / 2 + norm n * t + tn := by
  simp [predicted, one, at']

theorem one_logLike (uw : Bool) (n : N) (t : ℝ) (norm : N → ℝ) (tn : ℝ) :
    logLike uw (one n t) norm tn =
      3 * Real.log (1 / 2 + norm n * t + tn) - (1 / 2 + norm n * t + tn) := by
  unfold logLike
  have : (List.range (one n t).data.length) = [0] := rfl
  rw [this]
  simp only [List.map_cons, List.map_nil, List.sum_cons, List.sum_nil, add_zero]
  rw [one_predicted]
  cases uw <;> norm_num [term, one, at']

theorem one_adm (uw : Bool) (n : N) {t : ℝ} {norm : N → ℝ} {tn : ℝ}
    (h : 0 < 1 / 2 + norm n * t + tn) : Admissible uw (one n t) norm tn := by
  intro i hi
  have : i = 0 := by simpa [one] using hi
  subst this
  rw [one_predicted]
  exact ⟨h.le, fun _ => h⟩

/-- Two components that share a source. -/
example : ∃ m x, setup true [one "iso" 1, one "iso" 2] = .ok (m, x) ∧ m.data.length = 2 ∧
    getLogLikelihood m.data (x.names.map (fun _ => 3) ++ [1]) (x.templates ++ [x.test]) x.fixed none
      x.weights [0, 0] 0 0 =
      .ok ((3 * Real.log (1 / 2 + 3 * 1 + 1) - (1 / 2 + 3 * 1 + 1)) +
        ((3 * Real.log (1 / 2 + 3 * 2 + 1) - (1 / 2 + 3 * 2 + 1)) + 0)) := by
  obtain ⟨m, x, h1, h2, h3, h4, h5, h6⟩ := C141_sum true (one "iso" 1) [one "iso" 2]
    (by
      intro p hp
      simp only [List.mem_cons, List.not_mem_nil, or_false] at hp
      rcases hp with rfl | rfl <;> exact one_good _ _)
    (one_apart _ _ _ _) (by simp [one])
  have hl : m.data.length = 2 := by rw [h5]; rfl
  refine ⟨m, x, h1, hl, ?_⟩
  rw [h6 (fun _ => 3) 1 [0, 0] (by rw [hl]; rfl)]
  · simp only [List.map_cons, List.map_nil, List.sum_cons, List.sum_nil, one_logLike]
  · intro p hp
    simp only [List.mem_cons, List.not_mem_nil, or_false] at hp
    rcases hp with rfl | rfl <;> apply one_adm <;> norm_num

/-- C141 is violated: the numbers of free sources of all components have to agree.  Otherwise the
code uses elements of its lists of templates that do not exist, whichever component has more of
them. -/
theorem C141_count_violates (uw : Bool) (p0 : Part N) (qs : List (Part N))
    (hg : ∀ p ∈ p0 :: qs, Good p) (ha : Apart (p0 :: qs))
    (hn : ∃ p ∈ qs, p.names.length ≠ p0.names.length) : setup uw (p0 :: qs) = .ub := by
  refine setup_bad uw p0 qs hg ha ?_
  obtain ⟨p, hp, h⟩ := hn
  refine ⟨p, hp, ?_⟩
  rw [← (hg p (by simp [hp])).names, ← (hg p0 (by simp)).names]
  exact h

/-- A component without free sources. -/
noncomputable def none' : Part N := ⟨[1, 10], 1, [3], [], [], [], [1 / 2], [1], [1]⟩

/-- A sum of a component with a free source and one without, in both orders. -/
example : setup false [one "iso" 1, none'] = .ub ∧ setup false [none', one "iso" 1] = .ub := by
  have hgood : Good (none' : Part String) := by
    have h := one_good "iso" 1
    exact ⟨h.sorted, h.positive, h.bins, rfl, by simp [none'], rfl, rfl, rfl, rfl, rfl⟩
  have hap := one_apart "iso" "iso" 1 1
  constructor
  · refine C141_count_violates false _ _ ?_ ?_ ⟨none', by simp, by simp [none', one]⟩
    · intro p hp
      simp only [List.mem_cons, List.not_mem_nil, or_false] at hp
      rcases hp with rfl | rfl
      · exact one_good _ _
      · exact hgood
    · intro p hp q hq x hx y hy h
      simp only [List.mem_cons, List.not_mem_nil, or_false] at hp hq
      exact hap (one "iso" 1) (by simp) (one "iso" 1) (by simp) x
        (by rcases hp with rfl | rfl <;> exact hx) y (by rcases hq with rfl | rfl <;> exact hy) h
  · refine C141_count_violates false _ _ ?_ ?_ ⟨one "iso" 1, by simp, by simp [none', one]⟩
    · intro p hp
      simp only [List.mem_cons, List.not_mem_nil, or_false] at hp
      rcases hp with rfl | rfl
      · exact hgood
      · exact one_good _ _
    · intro p hp q hq x hx y hy h
      simp only [List.mem_cons, List.not_mem_nil, or_false] at hp hq
      exact hap (one "iso" 1) (by simp) (one "iso" 1) (by simp) x
        (by rcases hp with rfl | rfl <;> exact hx) y (by rcases hq with rfl | rfl <;> exact hy) h

/-- C141, what holds for components with equally many free sources: the names are those of the first
component, and the `j`-th source of each component is scaled with the normalisation of the `j`-th source of
the first one, whatever its own name. -/
theorem C141_names_partial (uw : Bool) (p0 : Part N) (qs : List (Part N)) (hg : ∀ p ∈ p0 :: qs, Good p)
    (ha : Apart (p0 :: qs)) (hn : ∀ p ∈ qs, p.names.length = p0.names.length) :
    ∃ m x, setup uw (p0 :: qs) = .ok (m, x) ∧ x.names = p0.names ∧ x.refs = p0.refs ∧
      ∀ (norm : N → ℝ) (tn : ℝ) (scratch : List ℝ), scratch.length = m.data.length →
        (∀ p ∈ p0 :: qs, Admissible uw { p with names := p0.names } norm tn) →
        getLogLikelihood m.data (x.names.map norm ++ [tn]) (x.templates ++ [x.test]) x.fixed none
          x.weights scratch 0 0 =
          .ok ((p0 :: qs).map fun p => logLike uw { p with names := p0.names } norm tn).sum := by
  obtain ⟨m, x, h1, h2, h3, h4, h5, h6⟩ := setup_value uw p0 qs hg ha (by
    intro p hp
    rw [← (hg p (by simp [hp])).names, ← (hg p0 (by simp)).names, hn p hp])
  exact ⟨m, x, h1, h2, h3, h6⟩

/-- C141 is violated: a source that is free in one component only.  Components with one free
source each, `a` and `b`, give a likelihood that does not depend on the normalisation of `b`: the
prediction for `b` is scaled with the normalisation of `a`. -/
theorem C141_names_violates (uw : Bool) (a b : N) (hab : a ≠ b) (s t : ℝ) (hs : 0 ≤ s) (ht : 0 < t) :
    ∃ m x, setup uw [one a s, one b t] = .ok (m, x) ∧ x.names = [a] ∧
      ∀ (norm : N → ℝ), 0 ≤ norm a →
        getLogLikelihood m.data (x.names.map norm ++ [0]) (x.templates ++ [x.test]) x.fixed none
          x.weights [0, 0] 0 0 =
          .ok (logLike uw (one a s) norm 0 + logLike uw (one b t) (fun _ => norm a) 0) ∧
        ∃ nb, 0 ≤ nb ∧ logLike uw (one b t) (fun _ => norm a) 0 ≠ logLike uw (one b t) (fun _ => nb) 0 := by
  obtain ⟨m, x, h1, h2, h3, h4, h5, h6⟩ := setup_value uw (one a s) [one b t]
    (by
      intro p hp
      simp only [List.mem_cons, List.not_mem_nil, or_false] at hp
      rcases hp with rfl | rfl <;> exact one_good _ _)
    (one_apart _ _ _ _) (by simp [one])
  have hl : m.data.length = 2 := by rw [h5]; rfl
  have hra : renamed (one a s) (one a s) = one a s := rfl
  have hrb : renamed (one a s) (one b t) = one a t := rfl
  refine ⟨m, x, h1, h2, ?_⟩
  intro norm hna
  have hp1 : 0 < 1 / 2 + norm a * s + 0 := by have := mul_nonneg hna hs; linarith
  have hp2 : 0 < 1 / 2 + norm a * t + 0 := by have := mul_nonneg hna ht.le; linarith
  constructor
  · rw [h6 norm 0 [0, 0] (by rw [hl]; rfl)]
    · simp only [List.map_cons, List.map_nil, List.sum_cons, List.sum_nil, hra, hrb, one_logLike, add_zero]
    · intro p hp
      simp only [List.mem_cons, List.not_mem_nil, or_false] at hp
      rcases hp with rfl | rfl
      · rw [hra]; exact one_adm _ _ hp1
      · rw [hrb]; exact one_adm _ _ hp2
  · by_contra hcon
    push Not at hcon
    have e1 := hcon (1 / (2 * t)) (by positivity)
    have e2 := hcon (7 / (2 * t)) (by positivity)
    rw [e1] at e2
    rw [one_logLike, one_logLike] at e2
    have c1 : 1 / (2 * t) * t = 1 / 2 := by field_simp
    have c2 : 7 / (2 * t) * t = 7 / 2 := by field_simp
    rw [c1, c2] at e2
    norm_num at e2
    have h4 : Real.log 4 = 2 * Real.log 2 := by
      rw [show (4 : ℝ) = 2 ^ 2 by norm_num, Real.log_pow]; norm_num
    have := Real.log_two_gt_d9
    linarith

/-- Two sources with positive predictions. -/
example : "a" ≠ "b" ∧ (0 : ℝ) ≤ 1 ∧ (0 : ℝ) < 2 := by
  refine ⟨by decide, by norm_num, by norm_num⟩

end Verif.SumScan
