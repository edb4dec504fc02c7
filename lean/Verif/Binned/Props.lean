import Verif.Binned.History
import Verif.Energy.Lemmas
set_option linter.unusedVariables false
set_option linter.unusedSimpArgs false
set_option linter.unusedSectionVars false
namespace Verif.Binned

open Verif.Vec Verif.Edisp Verif.Drm
open Verif.StdMap (find put erase keys)
open scoped BigOperators

/-! ### a small object for the examples

One energy bin with one extra bin on each side, two pixels, likelihood weights 1/2 and 1;
one count in the first pixel. -/

noncomputable def toy : Env where
  nebins := 1
  npix := 2
  ev := 1
  rsp := ⟨1, 1, [], 0, 0, 0, 0⟩
  cols := [[1/4, 1/2, 1/4]]
  weights := some [1/2, 1]
  data := [1/2, 0]
  filled := [0]
  first := [0, 1]

theorem toy_ok : toy.Ok where
  data := rfl
  filled := by
    rw [Counts.identifyFilled_eq _ _ _ rfl]
    simp [toy, Counts.filledUpTo, Counts.plane, Counts.positivePixels, List.range_succ]
  weights := by intro w hw; simp only [toy] at hw; injection hw with hw; rw [← hw]; rfl
  nmeas := rfl
  bins := rfl
  cols := rfl
  col := by intro c hc; simp [toy] at hc; subst hc; rfl

/-- A source with a flat map of height `c`, predicting `c` times its parameter in each bin
and pixel. -/
noncomputable def toySrc (addr : Nat) (c v : ℝ) (free : Bool) : Src where
  addr := addr
  useEdisp := true
  tmpl := fun _ => List.replicate 8 c
  spec := fun _ v => List.replicate 3 (val v 0 / 2, val v 0 / 2)
  dspec := fun _ _ _ => List.replicate 3 (1/2, 1/2)
  pars := [⟨v, free, fun _ => 0, fun _ => 0⟩]

theorem toySrc_ok (addr : Nat) (c v : ℝ) (free : Bool) : (toySrc addr c v free).Ok toy :=
  ⟨rfl, fun _ => rfl, fun _ _ => rfl⟩

/-- The library of templates for the examples. -/
noncomputable def toyL : Nat → Bool × (Nat → List ℝ) := fun _ => (true, fun _ => List.replicate 8 1)

theorem toy_disp (c w1 w2 : ℝ) (p : Nat) (hp : p < 2) :
    dispersed toy true (List.replicate 8 c) (List.replicate 3 (w1, w2)) 0 p = c * (w1 + w2) := by
  unfold dispersed trueCounts
  have h8 : ∀ i < 8, val (List.replicate 8 c) i = c := by
    intro i hi; unfold val; rw [List.getElem?_replicate, if_pos hi]; rfl
  have h3 : ∀ i < 3, val (List.replicate 3 (w1, w2)) i = (w1, w2) := by
    intro i hi; unfold val; rw [List.getElem?_replicate, if_pos hi]; rfl
  have hev : toy.ev.toNat = 1 := rfl
  have hn : toy.npix = 2 := rfl
  have h0 : (toy.cols[0]?.getD []) = [1/4, 1/2, 1/4] := rfl
  rw [if_pos ⟨rfl, by decide⟩, hev, hn, h0]
  simp only [Finset.sum_range_succ, Finset.sum_range_zero, zero_add, Nat.reduceMul, Nat.reduceAdd,
    Nat.zero_add]
  rw [h8 _ (by omega), h8 _ (by omega), h8 _ (by omega), h8 _ (by omega), h3 _ (by omega),
    h3 _ (by omega), h3 _ (by omega)]
  have e0 : val [(1/4 : ℝ), 1/2, 1/4] 0 = 1/4 := rfl
  have e1 : val [(1/4 : ℝ), 1/2, 1/4] 1 = 1/2 := rfl
  have e2 : val [(1/4 : ℝ), 1/2, 1/4] 2 = 1/4 := rfl
  rw [e0, e1, e2]
  ring

theorem toy_counts (addr : Nat) (c v : ℝ) (free : Bool) (x : ℝ) (p : Nat) (hp : p < 2) :
    counts toy (toySrc addr c v free) [x] 0 p = c * x := by
  have : counts toy (toySrc addr c v free) [x] 0 p =
    dispersed toy true (List.replicate 8 c) (List.replicate 3 (x / 2, x / 2)) 0 p := rfl
  rw [this, toy_disp _ _ _ _ hp]; ring

theorem toy_wt0 : wt toy 0 0 = 1 / 2 := rfl
theorem toy_wt1 : wt toy 0 1 = 1 := rfl

/-! ### C15 -/

variable {ν : Type} [LinearOrder ν]

/-- C15: after any covered history (edisp_val ≥ 0), `value` returns the weighted Poisson
log-likelihood of the whole model, summed over the pixels of the selected energy bins, plus
the log-priors, whatever mix of fixed and free sources the model has.  `raw` are the
observed counts; the model must be positive where there are counts. -/
theorem C15_value_is_poisson_likelihood (e : Env) (he : e.Ok) (hev : 0 ≤ e.ev)
    (L : ν → Bool × (Nat → List ℝ)) (ops : List (Op ν))
    (hc : CoveredRun e L (Ideal.new e) ops) (raw : Nat → Nat → ℝ)
    (hraw : ∀ k p, 0 ≤ raw k p) (hwt : ∀ k p, 0 ≤ wt e k p)
    (hdata : ∀ k < e.nebins, ∀ p < e.npix, val e.data (k * e.npix + p) = wt e k p * raw k p)
    (a : Ideal ν) (ha : a = (Ideal.new e).run ops)
    (hpos : ∀ k < e.nebins, ∀ p < e.npix, 0 < raw k p → 0 < total e a.srcs k p) :
    ∃ st st', run e (St.new e) ops = .ok st ∧ value e st = .ok (st',
      ∑ k ∈ Finset.Ico a.kmin a.kmax, ∑ p ∈ Finset.range e.npix,
        wt e k p * (raw k p * Real.log (total e a.srcs k p) - total e a.srcs k p) +
      (a.srcs.map (fun x => (x.2.pars.map (fun p => p.logPrior p.value)).sum)).sum) := by
  obtain ⟨st, h1, h2⟩ := run_rel he hev ops _ _ (rel_new (e := e) (L := L)) hc
  obtain ⟨st', h3, -⟩ := value_rel h2 he hev
  refine ⟨st, st', h1, ?_⟩
  rw [h3]
  subst ha
  have hr := h2.range
  rw [h2.kmax] at hr
  congr 2
  unfold logLike
  congr 1
  apply Finset.sum_congr rfl
  intro k hk
  rw [Finset.mem_Ico] at hk
  apply Finset.sum_congr rfl
  intro p hp
  rw [Finset.mem_range] at hp
  rw [hdata k (by omega) p hp]
  by_cases h : 0 < wt e k p * raw k p
  · have hrp : 0 < raw k p := by
      rcases (hraw k p).lt_or_eq with h' | h'
      · exact h'
      · rw [← h', mul_zero] at h; exact absurd h (lt_irrefl _)
    rw [if_pos ⟨h, hpos k (by omega) p hp hrp⟩]; ring
  · rw [if_neg (fun hh => h hh.1)]
    have : wt e k p * raw k p = 0 := le_antisymm (not_lt.1 h) (mul_nonneg (hwt k p) (hraw k p))
    linear_combination -this * Real.log (total e ((Ideal.new e).run ops).srcs k p)

/-- The history of the example: a fixed and a free source, an evaluation, the free source
changed. -/
noncomputable def toyOps : List (Op Nat) :=
  [.addSource 0 (toySrc 10 1 2 false), .addSource 1 (toySrc 11 1 3 true), .value,
   .setPars 1 [⟨5, true, fun _ => 0, fun _ => 0⟩] true]

theorem toyOps_covered : CoveredRun toy toyL (Ideal.new toy) toyOps :=
  ⟨⟨toySrc_ok _ _ _ _, rfl⟩, ⟨toySrc_ok _ _ _ _, rfl⟩, trivial, trivial, trivial⟩

theorem toyOps_srcs : ((Ideal.new toy).run toyOps).srcs =
    [(0, toySrc 10 1 2 false), (1, toySrc 11 1 5 true)] := by
  simp [toyOps, Ideal.run, Ideal.step, Ideal.new, StdMap.keys, StdMap.put, StdMap.find, toySrc]

theorem toyOps_total (p : Nat) (hp : p < 2) :
    total toy ((Ideal.new toy).run toyOps).srcs 0 p = 7 := by
  rw [toyOps_srcs]
  have h1 : counts toy (toySrc 10 1 2 false) (toySrc 10 1 2 false).vals 0 p = 2 := by
    have := toy_counts 10 1 2 false 2 p hp
    rw [one_mul] at this; exact this
  have h2 : counts toy (toySrc 11 1 5 true) (toySrc 11 1 5 true).vals 0 p = 5 := by
    have := toy_counts 11 1 5 true 5 p hp
    rw [one_mul] at this; exact this
  unfold total
  simp only [List.map_cons, List.map_nil, List.sum_cons, List.sum_nil, h1, h2]
  norm_num

/-- The hypotheses hold on the example, a fixed and a free source. -/
example : ∃ st st', run toy (St.new toy) toyOps = .ok st ∧ value toy st = .ok (st',
    ∑ k ∈ Finset.Ico ((Ideal.new toy).run toyOps).kmin ((Ideal.new toy).run toyOps).kmax,
      ∑ p ∈ Finset.range toy.npix, wt toy k p * ((if p = 0 then 1 else 0) *
        Real.log (total toy ((Ideal.new toy).run toyOps).srcs k p) -
        total toy ((Ideal.new toy).run toyOps).srcs k p) +
    (((Ideal.new toy).run toyOps).srcs.map
      (fun x => (x.2.pars.map (fun p => p.logPrior p.value)).sum)).sum) := by
  refine C15_value_is_poisson_likelihood toy toy_ok (by decide) toyL toyOps toyOps_covered
    (fun _ p => if p = 0 then 1 else 0) ?_ ?_ ?_ _ rfl ?_
  · intro k p; split <;> norm_num
  · intro k p
    unfold wt
    simp only [toy]
    unfold val
    rcases h : k * 2 + p with _ | _ | n <;> norm_num
  · intro k hk p hp
    obtain rfl : k = 0 := by simp [toy] at hk; omega
    have hp2 : p < 2 := hp
    obtain rfl | rfl : p = 0 ∨ p = 1 := by omega
    · rw [toy_wt0]; simp [toy, val]
    · rw [toy_wt1]; simp [toy, val]
  · intro k hk p hp _
    obtain rfl : k = 0 := by simp [toy] at hk; omega
    rw [toyOps_total p hp]; norm_num

/-! ### C17 -/

/-- C17 (partial): the value after a covered history depends only on the sources, their
parameters and the energy range it leaves: two histories with the same outcome, one of
which may be "build a new object", give the same value.  Covered: edisp_val ≥ 0; a name
always has the same template; no source is deleted between a change of its parameters and
the next evaluation. -/
theorem C17_cache_invisible_partial (e : Env) (he : e.Ok) (hev : 0 ≤ e.ev)
    (L : ν → Bool × (Nat → List ℝ)) (ops ops' : List (Op ν))
    (hc : CoveredRun e L (Ideal.new e) ops) (hc' : CoveredRun e L (Ideal.new e) ops')
    (hs : ((Ideal.new e).run ops).srcs = ((Ideal.new e).run ops').srcs)
    (hmin : ((Ideal.new e).run ops).kmin = ((Ideal.new e).run ops').kmin)
    (hmax : ((Ideal.new e).run ops).kmax = ((Ideal.new e).run ops').kmax) :
    ∃ st st' s s' v, run e (St.new e) ops = .ok st ∧ value e st = .ok (s, v) ∧
      run e (St.new e) ops' = .ok st' ∧ value e st' = .ok (s', v) := by
  obtain ⟨st, h1, h2⟩ := run_rel he hev ops _ _ (rel_new (e := e) (L := L)) hc
  obtain ⟨s, h3, -⟩ := value_rel h2 he hev
  obtain ⟨st', h1', h2'⟩ := run_rel he hev ops' _ _ (rel_new (e := e) (L := L)) hc'
  obtain ⟨s', h3', -⟩ := value_rel h2' he hev
  exact ⟨st, st', s, s', _, h1, h3, h1', by rw [h3', hs, hmin, hmax]⟩

/-- The example history (evaluated in between) and the direct construction. -/
example : ∃ st st' s s' v, run toy (St.new toy) toyOps = .ok st ∧ value toy st = .ok (s, v) ∧
    run toy (St.new toy) [.addSource 1 (toySrc 11 1 5 true), .addSource 0 (toySrc 10 1 2 false)] =
      .ok st' ∧ value toy st' = .ok (s', v) := by
  refine C17_cache_invisible_partial toy toy_ok (by decide) toyL toyOps _ toyOps_covered
    ⟨⟨toySrc_ok _ _ _ _, rfl⟩, ⟨toySrc_ok _ _ _ _, rfl⟩, trivial⟩ ?_ ?_ ?_
  · rw [toyOps_srcs]
    simp [Ideal.run, Ideal.step, Ideal.new, StdMap.keys, StdMap.put]
  · simp [toyOps, Ideal.run, Ideal.step, Ideal.new, StdMap.keys, StdMap.put, StdMap.find, toySrc]
  · simp [toyOps, Ideal.run, Ideal.step, Ideal.new, StdMap.keys, StdMap.put, StdMap.find, toySrc]

/-- What deleting a fixed source after changing its parameters does, for every object and
source: the difference between its old and its new counts stays in the fixed model of the
now empty likelihood. -/
theorem C17_delete_changed_residue_violates (e : Env) (he : e.Ok) (hev : 0 ≤ e.ev) (n : ν) (σ : Src)
    (hσ : σ.Ok e) (hfx : σ.fixed = true) (ps : List Par) (sync : Bool) (R : Nat → Nat → ℝ)
    (hR : ∀ k p, R k p = counts e σ σ.vals k p - counts e σ (ps.map Par.value) k p) :
    ∃ st st', run e (St.new e) [.addSource n σ, .setPars n ps sync, .deleteSource n] = .ok st ∧
      st.srcs = [] ∧ value e st = .ok (st', ∑ k ∈ Finset.Ico 0 e.nebins,
        (∑ p ∈ Finset.range e.npix, (if 0 < val e.data (k * e.npix + p) ∧ 0 < R k p then
          val e.data (k * e.npix + p) * Real.log (R k p) else 0) -
          ∑ p ∈ Finset.range e.npix, wt e k p * R k p)) := by
  obtain ⟨hinv, hnf⟩ := inv_put_src (rel_new (ν := ν) (e := e) (L := fun _ => (σ.useEdisp, σ.tmpl))).inv
    (n := n) (σ := σ) (by simp [St.new, keys]) hσ rfl
  have hfn : find (put (St.new e : St ν).srcs n σ) n = some σ := by simp [St.new, put, find]
  obtain ⟨st1, b1, b2, b3, b4, b5, b6, b7, -, b8, b9, b10⟩ := addFixed_ok hinv he hev hfn hnf
  have hadd : addSource e (St.new e) n σ = .ok st1 := by
    unfold addSource
    rw [if_neg (by simp [St.new, keys])]
    simp only
    rw [if_pos hfx]; exact b1
  have hs1 : st1.srcs = [(n, σ)] := b3
  have hf1 : st1.fixedNames = [n] := b4
  have hk0 : st1.kmin = 0 := b5
  have hk1 : st1.kmax = e.nebins := b6
  have hfind1 : find st1.srcs n = some σ := by rw [hs1]; simp [find]
  set st2 : St ν := { st1 with srcs := put st1.srcs n { σ with pars := ps },
                               current := if sync then false else st1.current } with hst2
  have hset : setPars st1 n ps sync = .ok st2 := by unfold setPars; rw [hfind1]
  have hinv2 : Inv e (fun _ => (σ.useEdisp, σ.tmpl)) st2 := setPars_inv b2 hfind1 ps _
  have hs2 : st2.srcs = [(n, { σ with pars := ps })] := by
    change put st1.srcs n _ = _
    rw [hs1]; simp [put]
  have hfind2 : find st2.srcs n = some { σ with pars := ps } := by rw [hs2]; simp [find]
  have hmem : n ∈ st2.fixedNames := by change n ∈ st1.fixedNames; rw [hf1]; simp
  obtain ⟨m, out, sp, s1, s2, s3, s4, s5, s6, s7⟩ := subtractFixed_ok hinv2 he hev hfind2 hmem
  set st3 : St ν := { st2.putMap n m with
          fixedCounts := out, fixedSpec := sp, fixedNames := st2.fixedNames.erase n,
          srcs := erase st2.srcs n } with hst3
  have hdel : deleteSource e st2 n = .ok st3 := by
    unfold deleteSource
    rw [if_pos (by rw [hs2]; simp [keys]), s1, Res.bind_ok]
    rfl
  have hs3 : st3.srcs = [] := by
    change erase st2.srcs n = []
    rw [hs2]; simp [erase]
  have hn3 : st3.fixedNames = [] := by
    change st1.fixedNames.erase n = []
    rw [hf1]; simp
  obtain ⟨m1, hm1⟩ := (b2.fixedIn n (by rw [hf1]; simp)).2
  have hl1 := b9 m1 hm1
  have hout : ∀ k < e.nebins, ∀ j, val e.first k ≤ j → j < val e.first (k + 1) →
      val st3.fixedCounts j = R k (val e.filled j) := by
    intro k hk j h1 h2
    change val out j = _
    rw [s6 k hk j h1 h2]
    have : val st2.fixedCounts j = counts e σ σ.vals k (val e.filled j) := by
      change val st1.fixedCounts j = _
      rw [b2.countsVal k hk j h1 h2, hf1]
      simp only [List.map_cons, List.map_nil, List.sum_cons, List.sum_nil, add_zero]
      unfold contrib
      simp only [hfind1, hm1, hl1]
    rw [this, hR]; rfl
  obtain ⟨st', hv⟩ := value_residue (st := st3) he hs3 hn3 s4 s5
    (by change st1.kmax ≤ _; rw [hk1]) hout
  refine ⟨st3, st', ?_, hs3, ?_⟩
  · simp only [run, step, hadd, hset, hdel]
  · rw [hv]
    have e0 : st3.kmin = 0 := hk0
    have e1 : st3.kmax = e.nebins := hk1
    rw [e0, e1]
    congr 2
    apply Finset.sum_congr rfl
    intro k hk
    rw [Finset.mem_Ico] at hk
    congr 1
    change val sp.edispWt k = _
    rw [s7 k (by omega)]
    have : val st2.fixedSpec.edispWt k = wcounts e σ σ.vals k := by
      change val st1.fixedSpec.edispWt k = _
      rw [b2.specVal k (by omega), hf1]
      simp only [List.map_cons, List.map_nil, List.sum_cons, List.sum_nil, add_zero]
      unfold wcontrib
      simp only [hfind1, hm1, hl1]
    rw [this]
    unfold wcounts
    rw [← Finset.sum_sub_distrib]
    apply Finset.sum_congr rfl
    intro p _
    rw [hR, mul_sub]; rfl

/-- C17 fails: add a fixed source with parameter 1, set the parameter to 3, delete the
source; the empty model now has log-likelihood 3 instead of 0. -/
theorem C17_delete_changed_violates :
    ∃ st st', run toy (St.new toy) [.addSource 0 (toySrc 10 1 1 false),
        .setPars 0 [⟨3, false, fun _ => 0, fun _ => 0⟩] true, .deleteSource 0] = .ok st ∧
      st.srcs = ([] : List (Nat × Src)) ∧ value toy st = .ok (st', 3) ∧
      logLike toy st.srcs st.kmin st.kmax = 0 := by
  obtain ⟨st, st', h1, h2, h3⟩ := C17_delete_changed_residue_violates toy toy_ok (by decide) 0
    (toySrc 10 1 1 false) (toySrc_ok _ _ _ _) rfl [⟨3, false, fun _ => 0, fun _ => 0⟩] true
    (fun k p => counts toy (toySrc 10 1 1 false) (toySrc 10 1 1 false).vals k p -
      counts toy (toySrc 10 1 1 false) [3] k p) (fun _ _ => rfl)
  refine ⟨st, st', h1, h2, ?_, ?_⟩
  · rw [h3]
    congr 2
    have hR : ∀ p < 2, counts toy (toySrc 10 1 1 false) (toySrc 10 1 1 false).vals 0 p -
      counts toy (toySrc 10 1 1 false) [3] 0 p = -2 := by
      intro p hp
      have h1 := toy_counts 10 1 1 false 1 p hp
      have h2 := toy_counts 10 1 1 false 3 p hp
      have h1' : counts toy (toySrc 10 1 1 false) (toySrc 10 1 1 false).vals 0 p = 1 * 1 := h1
      rw [h1', h2]; norm_num
    have hn : toy.nebins = 1 := rfl
    have hp : toy.npix = 2 := rfl
    rw [hn, hp]
    simp only [Finset.sum_range_succ, Finset.sum_range_zero, Nat.Ico_zero_eq_range]
    rw [hR 0 (by omega), hR 1 (by omega), toy_wt0, toy_wt1]
    norm_num
  · rw [h2]; simp [logLike, total]

/-- C17 fails: a source re-added under the name of a deleted one, with another template,
is evaluated with the template of the deleted source.  For every object and pair of
sources. -/
theorem C17_name_reuse_violates (e : Env) (he : e.Ok) (hev : 0 ≤ e.ev) (n : ν) (σ τ : Src)
    (hσ : σ.Ok e) (hτ : τ.Ok e) (hu : τ.useEdisp = σ.useEdisp) (hfx : σ.fixed = false)
    (hfx' : τ.fixed = false) :
    ∃ st st', run e (St.new e) [.addSource n σ, .deleteSource n, .addSource n τ] = .ok st ∧
      st.srcs = [(n, τ)] ∧
      value e st = .ok (st', logLike e [(n, { τ with tmpl := σ.tmpl })] 0 e.nebins) := by
  -- the same history with the second source given the first template
  set L : ν → Bool × (Nat → List ℝ) := fun _ => (σ.useEdisp, σ.tmpl) with hL
  obtain ⟨st1, h1, h2⟩ := run_rel he hev [.addSource n σ, .deleteSource n] _ _
    (rel_new (ν := ν) (e := e) (L := L)) ⟨⟨hσ, rfl⟩, by simp [Covered, Ideal.step, Ideal.new, keys], trivial⟩
  have hs1 : st1.srcs = [] := by
    rw [h2.srcs]
    simp [Ideal.run, Ideal.step, Ideal.new, keys, put, erase]
  have hk0 : st1.kmin = 0 := by
    rw [h2.kmin]; simp [Ideal.run, Ideal.step, Ideal.new, keys, put, erase]
  have hk1 : st1.kmax = e.nebins := by
    rw [h2.kmax]; simp [Ideal.run, Ideal.step, Ideal.new, keys, put, erase]
  -- the map of the first source is still there
  have hmaps : ∃ m, find st1.maps n = some m ∧ st1.fixedNames = [] := by
    obtain ⟨i1, i2⟩ := inv_put_src (rel_new (ν := ν) (e := e) (L := L)).inv
      (n := n) (σ := σ) (by simp [St.new, keys]) hσ rfl
    have hfn : find (put (St.new e : St ν).srcs n σ) n = some σ := by simp [St.new, put, find]
    obtain ⟨m, g1, -, -⟩ := getMap_ok i1 he hev hfn
    have hadd : addSource e (St.new e) n σ =
        .ok (({ (St.new e : St ν) with srcs := put (St.new e : St ν).srcs n σ } : St ν).putMap n m) := by
      unfold addSource
      rw [if_neg (by simp [St.new, keys])]
      simp only
      rw [if_neg (by simp [hfx]), g1, Res.bind_ok]
    simp only [run, step, hadd] at h1
    have hdel : deleteSource e (({ (St.new e : St ν) with
        srcs := put (St.new e : St ν).srcs n σ } : St ν).putMap n m) n = .ok
        { (({ (St.new e : St ν) with srcs := put (St.new e : St ν).srcs n σ } : St ν).putMap n m) with
          srcs := erase (put (St.new e : St ν).srcs n σ) n } := by
      unfold deleteSource
      rw [if_pos (by simp [St.putMap, St.new, keys, put])]
      unfold subtractFixed
      rw [if_neg (by simp [St.putMap, St.new])]
      rfl
    rw [hdel] at h1
    injection h1 with h1
    subst h1
    exact ⟨m, by simp [St.putMap, St.new, put, find], rfl⟩
  obtain ⟨m, hm, hnames⟩ := hmaps
  -- the re-added source
  have hτ' : ({ τ with tmpl := σ.tmpl } : Src).Ok e := by
    refine ⟨?_, hτ.spec, hτ.dspec⟩
    have := hσ.tmpl
    rw [← hu] at this
    exact this
  obtain ⟨i1, i2⟩ := inv_put_src h2.inv (n := n) (σ := { τ with tmpl := σ.tmpl })
    (by rw [hs1]; simp [keys]) hτ' (by simp [hL, hu])
  have hadd : addSource e st1 n τ = .ok ({ st1.putMap n (setSource m τ) with srcs := [(n, τ)] } : St ν) := by
    unfold addSource
    rw [if_neg (by rw [hs1]; simp [keys])]
    simp only
    rw [if_neg (by simp [hfx'])]
    unfold getMap
    simp only [hm, Res.bind_ok]
    rw [hs1]; rfl
  have hfn : find (put st1.srcs n { τ with tmpl := σ.tmpl }) n = some { τ with tmpl := σ.tmpl } := by
    rw [hs1]; simp [put, find]
  have hfit := setSource_fit (h2.inv.map n m hm) (σ := τ) hu
  obtain ⟨j1, j2⟩ := putMap_inv i1 (n := n) (m := setSource m τ) hfit.1
    (by
      intro m0 hm0
      have : find st1.maps n = some m0 := hm0
      rw [hm] at this; cases this; exact hfit.2)
  obtain ⟨s', hv, -⟩ := value_ok j1 he hev (by change st1.kmax ≤ _; rw [hk1])
  have hsrc' : (put st1.srcs n { τ with tmpl := σ.tmpl }) = [(n, { τ with tmpl := σ.tmpl })] := by
    rw [hs1]; rfl
  have hv' : value e ({ st1.putMap n (setSource m τ) with
      srcs := [(n, { τ with tmpl := σ.tmpl })] } : St ν) =
      .ok (s', logLike e [(n, { τ with tmpl := σ.tmpl })] 0 e.nebins) := by
    rw [← hsrc']
    refine Eq.trans ?_ (hv.trans ?_)
    · rfl
    · congr 2
      change logLike e (put st1.srcs n { τ with tmpl := σ.tmpl }) st1.kmin st1.kmax = _
      rw [hk0, hk1]
  obtain ⟨s, hs⟩ := value_tmpl (st := st1.putMap n (setSource m τ)) n τ σ.tmpl (setSource m τ) hfx'
    (by change find (put st1.maps n _) n = _
        rw [StdMap.find_put h2.inv.sortedM, if_pos rfl]) hnames hv'
  refine ⟨_, s, ?_, rfl, hs⟩
  have : run e (St.new e) [.addSource n σ, .deleteSource n, .addSource n τ] =
      (run e (St.new e) [.addSource n σ, .deleteSource n] >>= fun st => run e st [.addSource n τ]) := by
    simp only [run]
    cases step e (St.new e) (.addSource n σ) with
    | ok s1 => cases hq : step e s1 (.deleteSource n) <;> simp [hq]
    | throws => cases hq : step e (St.new e) (.deleteSource n) <;> simp [hq]
    | ub => rfl
  rw [this, h1, Res.bind_ok]
  simp only [run, step, hadd]

/-- A witness: heights 1 and 2.  The value is not the likelihood of the model. -/
example : ∃ st st' v, run toy (St.new toy) [.addSource 0 (toySrc 10 1 1 true), .deleteSource 0,
      .addSource 0 (toySrc 11 2 1 true)] = .ok st ∧ st.srcs = [(0, toySrc 11 2 1 true)] ∧
    value toy st = .ok (st', v) ∧ v ≠ logLike toy st.srcs 0 toy.nebins := by
  obtain ⟨st, st', h1, h2, h3⟩ := C17_name_reuse_violates toy toy_ok (by decide) (0 : Nat)
    (toySrc 10 1 1 true) (toySrc 11 2 1 true) (toySrc_ok _ _ _ _) (toySrc_ok _ _ _ _) rfl rfl rfl
  refine ⟨st, st', _, h1, h2, h3, ?_⟩
  rw [h2]
  have hl : ∀ (σ : Src) (M : ℝ), (∀ p < 2, counts toy σ σ.vals 0 p = M) → 0 < M →
      (σ.pars.map (fun p => p.logPrior p.value)).sum = 0 →
      logLike toy [((0 : Nat), σ)] 0 toy.nebins = 1 / 2 * Real.log M - 3 / 2 * M := by
    intro σ M hM hpos hpr
    unfold logLike total
    have hn : toy.nebins = 1 := rfl
    have hp : toy.npix = 2 := rfl
    rw [hn, hp]
    simp only [Finset.sum_range_succ, Finset.sum_range_zero, Nat.Ico_zero_eq_range, List.map_cons,
      List.map_nil, List.sum_cons, List.sum_nil, add_zero, zero_add, zero_mul, hpr]
    rw [hM 0 (by omega), hM 1 (by omega), toy_wt0, toy_wt1]
    have e0 : val toy.data 0 = 1 / 2 := rfl
    have e1 : val toy.data 1 = 0 := rfl
    rw [e0, e1]
    simp only [lt_irrefl, false_and, if_false]
    rw [if_pos ⟨by norm_num, hpos⟩]
    ring
  rw [hl _ 1 (fun p hp => by
      have := toy_counts 11 1 1 true 1 p hp
      refine Eq.trans ?_ (this.trans (by norm_num)); rfl) (by norm_num) (by simp [toySrc]),
    hl _ 2 (fun p hp => by
      have := toy_counts 11 2 1 true 1 p hp
      refine Eq.trans ?_ (this.trans (by norm_num)); rfl) (by norm_num) (by simp [toySrc])]
  rw [Real.log_one]
  have : Real.log 2 ≤ 2 - 1 := Real.log_le_sub_one_of_pos (by norm_num)
  intro hh
  linarith

/-! ### C16 -/

/-- C16 (partial): when the model was last changed through calls that tell the likelihood
object so, or was evaluated since, `getFreeDerivs` returns, in the order of the free
parameters, the partial derivatives of the log-likelihood that `value` returns (edisp_val
≥ 0; the model is not 0 where there are counts). -/
theorem C16_derivs_are_gradient_partial (e : Env) (he : e.Ok) (hev : 0 ≤ e.ev)
    (L : ν → Bool × (Nat → List ℝ)) (ops : List (Op ν))
    (hc : CoveredRun e L (Ideal.new e) ops) (a : Ideal ν) (ha : a = (Ideal.new e).run ops)
    (hfresh : a.stale = false)
    (hd : ∀ n σ, find a.srcs n = some σ → σ.Differentiable e)
    (hpos : ∀ k, a.kmin ≤ k → k < a.kmax → ∀ p < e.npix, 0 < val e.data (k * e.npix + p) →
      total e a.srcs k p ≠ 0) :
    ∃ st st1 st2 out, run e (St.new e) ops = .ok st ∧
      value e st = .ok (st1, logLike e a.srcs a.kmin a.kmax) ∧
      getFreeDerivs e st = .ok (st2, out) ∧
      List.Forall₂ (fun q d => HasDerivAt
        (fun x => logLike e (setParam a.srcs q.1 q.2.1 x) a.kmin a.kmax) d q.2.2)
        (freeParams a.srcs) out := by
  obtain ⟨st, h1, h2⟩ := run_rel he hev ops _ _ (rel_new (e := e) (L := L)) hc
  rw [← ha] at h2
  obtain ⟨st1, h3, -⟩ := value_rel h2 he hev
  obtain ⟨st2, out, h4, -, h5⟩ := getFreeDerivs_rel h2 he hev
  refine ⟨st, st1, st2, out, h1, h3, h4, ?_⟩
  rw [h5 hfresh]
  have hsorted : StdMap.Sorted a.srcs := by rw [← h2.srcs]; exact h2.inv.sorted
  unfold freeParams
  -- source by source
  have hgen : ∀ l : List (ν × Src), (∀ x ∈ l, find a.srcs x.1 = some x.2) →
      List.Forall₂ (fun q d => HasDerivAt
        (fun x => logLike e (setParam a.srcs q.1 q.2.1 x) a.kmin a.kmax) d q.2.2)
        (l.map (fun s => s.2.freeIdx.map (fun i => (s.1, i, val s.2.vals i)))).flatten
        (l.map (fun x => x.2.freeIdx.map (gradEntry e a.srcs a.kmin a.kmax x.2))).flatten := by
    intro l hl
    induction l with
    | nil => simp
    | cons x l ih =>
      simp only [List.map_cons, List.flatten_cons]
      refine List.rel_append (?_) (ih (fun y hy => hl y (List.mem_cons_of_mem _ hy)))
      rw [List.forall₂_map_left_iff, List.forall₂_map_right_iff, List.forall₂_same]
      intro i hi
      have hx := hl x (by simp)
      exact hasDerivAt_logLike a.srcs hsorted hx (hd x.1 x.2 hx) hi a.kmin a.kmax hpos
  exact hgen a.srcs (fun x hx => StdMap.find_of_mem hsorted hx)

/-- The spectral weights are differentiable with the weights of the derivative spectrum as
derivative, as the theorem above asks: `f` is the spectrum on the energy grid as a function
of a parameter, `d` its derivative. -/
theorem C16_spectral_weights_derivative (energies ratios : List ℝ) (f : ℝ → List ℝ) (d : List ℝ)
    (x0 : ℝ) (hf : ∀ x, (f x).length = energies.length) (hd : d.length = energies.length)
    (hr : ratios.length + 1 = energies.length)
    (hder : ∀ i < energies.length, HasDerivAt (fun x => val (f x) i) (val d i) x0) :
    ∃ (W : ℝ → List (ℝ × ℝ)) (W' : List (ℝ × ℝ)),
      (∀ x, Energy.spectralWeights (f x) energies ratios = .ok (W x)) ∧
      Energy.spectralWeights d energies ratios = .ok W' ∧
      ∀ t, HasDerivAt (fun x => (val (W x) t).1) (val W' t).1 x0 ∧
        HasDerivAt (fun x => (val (W x) t).2) (val W' t).2 x0 := by
  refine ⟨_, _, fun x => Energy.spectralWeights_ok (hf x) hr, Energy.spectralWeights_ok hd hr, ?_⟩
  intro t
  by_cases ht : t < ratios.length
  · simp only [val_map_range _ ht]
    refine ⟨?_, ?_⟩
    · exact (((hder t (by omega)).mul_const _).mul_const _).div_const _
    · exact (((hder (t + 1) (by omega)).mul_const _).mul_const _).div_const _
  · have h0 : ∀ g : Nat → ℝ × ℝ, val ((List.range ratios.length).map g) t = 0 := by
      intro g
      exact val_ge (by simpa using Nat.le_of_not_lt ht)
    simp only [h0]
    exact ⟨hasDerivAt_const _ _, hasDerivAt_const _ _⟩

theorem toySrc_differentiable (addr : Nat) (c v : ℝ) (free : Bool) :
    (toySrc addr c v free).Differentiable toy := by
  refine ⟨?_, ?_⟩
  · intro i hi t
    have hi0 : i = 0 := by
      unfold Src.freeIdx at hi
      rw [List.mem_filter, List.mem_range] at hi
      have : (toySrc addr c v free).pars.length = 1 := rfl
      omega
    subst hi0
    have hv : ∀ x, val ((toySrc addr c v free).vals.set 0 x) 0 = x := fun x => rfl
    have hw : ∀ w : ℝ × ℝ, val (List.replicate 3 w) t = if t < 3 then w else 0 := by
      intro w
      unfold val
      rw [List.getElem?_replicate]
      split <;> rfl
    have h1 : ∀ x, val ((toySrc addr c v free).spec (toy.extra (toySrc addr c v free).useEdisp)
        ((toySrc addr c v free).vals.set 0 x)) t = if t < 3 then (x / 2, x / 2) else 0 := by
      intro x
      have := hw (x / 2, x / 2)
      rw [← this]; rfl
    have h2 : val ((toySrc addr c v free).dspec (toy.extra (toySrc addr c v free).useEdisp)
        (toySrc addr c v free).vals 0) t = if t < 3 then ((1 : ℝ) / 2, (1 : ℝ) / 2) else 0 := by
      rw [← hw]; rfl
    simp only [h1, h2]
    by_cases ht : t < 3
    · simp only [if_pos ht]
      exact ⟨(hasDerivAt_id' _).div_const _, (hasDerivAt_id' _).div_const _⟩
    · simp only [if_neg ht]
      exact ⟨hasDerivAt_const _ _, hasDerivAt_const _ _⟩
  · intro p hp _
    simp only [toySrc, List.mem_singleton] at hp
    subst hp
    exact hasDerivAt_const _ _

/-- The hypotheses hold on the example. -/
example : ∃ st st1 st2 out, run toy (St.new toy) toyOps = .ok st ∧
    value toy st = .ok (st1, logLike toy ((Ideal.new toy).run toyOps).srcs 0 1) ∧
    getFreeDerivs toy st = .ok (st2, out) ∧ out.length = 1 := by
  have hstale : ((Ideal.new toy).run toyOps).stale = false := by
    simp [toyOps, Ideal.run, Ideal.step, Ideal.new, StdMap.keys, StdMap.put, StdMap.find, toySrc]
  have hmin : ((Ideal.new toy).run toyOps).kmin = 0 := by
    simp [toyOps, Ideal.run, Ideal.step, Ideal.new, StdMap.keys, StdMap.put, StdMap.find, toySrc]
  have hmax : ((Ideal.new toy).run toyOps).kmax = 1 := by
    simp [toyOps, Ideal.run, Ideal.step, Ideal.new, StdMap.keys, StdMap.put, StdMap.find, toySrc, toy]
  obtain ⟨st, st1, st2, out, h1, h2, h3, h4⟩ := C16_derivs_are_gradient_partial toy toy_ok (by decide)
    toyL toyOps toyOps_covered _ rfl hstale
    (by
      intro n σ hn
      rw [toyOps_srcs] at hn
      have := StdMap.find_some_mem hn
      simp only [List.mem_cons, List.not_mem_nil, or_false, Prod.mk.injEq] at this
      rcases this with ⟨-, rfl⟩ | ⟨-, rfl⟩ <;> exact toySrc_differentiable _ _ _ _)
    (by
      intro k h1 h2 p hp _
      rw [hmax] at h2
      obtain rfl : k = 0 := by omega
      rw [toyOps_total p hp]; norm_num)
  rw [hmin, hmax] at h2
  refine ⟨st, st1, st2, out, h1, h2, h3, ?_⟩
  rw [← h4.length_eq, toyOps_srcs]
  simp [freeParams, Src.freeIdx, toySrc, List.range_succ]

/-- C16 fails: after an evaluation, a free source is added; `getFreeDerivs` then returns
the derivatives computed with the model that lacks the new source (-1 for both parameters;
the gradient is -5/4). -/
theorem C16_stale_model_violates :
    ∃ st st', run toy (St.new toy) [.addSource 0 (toySrc 10 1 1 true), .value,
        .addSource 1 (toySrc 11 1 1 true)] = .ok st ∧
      st.srcs = [(0, toySrc 10 1 1 true), (1, toySrc 11 1 1 true)] ∧
      getFreeDerivs toy st = .ok (st', [-1, -1]) ∧
      HasDerivAt (fun x => logLike toy (setParam st.srcs 0 0 x) st.kmin st.kmax) (-5/4) 1 := by
  have hc : CoveredRun toy toyL (Ideal.new toy) [.addSource 0 (toySrc 10 1 1 true), .value] :=
    ⟨⟨toySrc_ok _ _ _ _, rfl⟩, trivial, trivial⟩
  have he := toy_ok
  have hev : 0 ≤ toy.ev := by decide
  -- first source, evaluated
  obtain ⟨s0, q1, q2, q3, q4⟩ := addSource_ok (rel_new (ν := Nat) (e := toy) (L := toyL)) he hev
    (n := 0) (σ := toySrc 10 1 1 true) (by simp [St.new, keys]) (toySrc_ok _ _ _ _) rfl
  obtain ⟨s1, c1, c2, c3, c4, c5, c6, c7⟩ := value_ok q2.inv he hev q2.range
  have hr1 : Rel toy toyL (((Ideal.new toy).step (.addSource 0 (toySrc 10 1 1 true))).step .value) s1 := by
    obtain ⟨s1', g1, g2⟩ := value_rel q2 he hev
    rw [c1] at g1
    injection g1 with g1
    have : s1 = s1' := congrArg Prod.fst g1
    rw [this]; exact g2
  have hs1 : s1.srcs = [(0, toySrc 10 1 1 true)] := by
    rw [hr1.srcs]; simp [Ideal.step, Ideal.new, keys, put]
  have hk0 : s1.kmin = 0 := by rw [hr1.kmin]; simp [Ideal.step, Ideal.new, keys, put]
  have hk1 : s1.kmax = 1 := by rw [hr1.kmax]; simp [Ideal.step, Ideal.new, keys, put, toy]
  have hf1 : s1.fixedNames = [] := by
    have := c7.perm
    rw [hs1] at this
    have h0 : fixedNow [((0 : Nat), toySrc 10 1 1 true)] = [] := rfl
    rw [h0] at this
    exact List.Perm.eq_nil this
  -- second source
  obtain ⟨s2, d1, d2, d3, d4⟩ := addSource_ok hr1 he hev (n := 1) (σ := toySrc 11 1 1 true)
    (by rw [hs1]; simp [keys]) (toySrc_ok _ _ _ _) rfl
  obtain ⟨d5, d6⟩ := d4 rfl
  have hs2 : s2.srcs = [(0, toySrc 10 1 1 true), (1, toySrc 11 1 1 true)] := by
    rw [d2.srcs]; simp [Ideal.step, Ideal.new, keys, put]
  have hk0' : s2.kmin = 0 := by rw [d2.kmin]; simp [Ideal.step, Ideal.new, keys, put]
  have hk1' : s2.kmax = 1 := by rw [d2.kmax]; simp [Ideal.step, Ideal.new, keys, put, toy]
  obtain ⟨s3, out, e1, e2, e3, e4, e5, e6, e7, e8, e9⟩ :=
    getFreeDerivs_safe d2.inv he hev d2.range d2.modelLen
  obtain ⟨D, D1, ds, D2, D3⟩ := e9 (by rw [d3]; exact c6)
  have hM : val s2.model 0 = 1 := by
    rw [d5, c7.model 0 (by rw [hk0]) (by rw [hk1]; omega) 0 (by simp [toy, val]) (by simp [toy, val]), hs1]
    have := toy_counts 10 1 1 true 1 0 (by omega)
    unfold total
    simp only [List.map_cons, List.map_nil, List.sum_cons, List.sum_nil, add_zero]
    refine Eq.trans ?_ (this.trans (by norm_num))
    rfl
  have hD : D 0 0 = 1 / 2 := by
    have := D1 0 (by rw [hk0']) (by rw [hk1']; omega) 0 (by simp [toy, val]) (by simp [toy, val])
    rw [hM] at this
    have e0 : val toy.filled 0 = 0 := rfl
    have e1 : val toy.data 0 = 1 / 2 := rfl
    rw [e0] at this
    simp only [zero_mul, Nat.zero_add] at this
    rw [e1] at this
    rw [this]; norm_num
  have hdc : ∀ (addr : Nat) (p : Nat), p < 2 → dcounts toy (toySrc addr 1 1 true) 0 0 p = 1 := by
    intro addr p hp
    have := toy_disp 1 (1/2) (1/2) p hp
    refine Eq.trans ?_ (this.trans (by norm_num))
    rfl
  have hG : ∀ (D : Nat → Nat → ℝ) (addr : Nat),
      gradWith toy D 0 1 (toySrc addr 1 1 true) 0 = D 0 0 - 3 / 2 := by
    intro D addr
    unfold gradWith
    have hp : toy.npix = 2 := rfl
    rw [hp]
    simp only [Finset.sum_range_succ, Finset.sum_range_zero, Nat.Ico_zero_eq_range, zero_mul,
      Nat.zero_add, zero_add]
    rw [hdc addr 0 (by omega), hdc addr 1 (by omega), toy_wt0, toy_wt1]
    have e0 : val toy.data 0 = 1 / 2 := rfl
    have e1 : val toy.data 1 = 0 := rfl
    rw [e0, e1]
    norm_num
    ring
  have hfi : ∀ addr, (toySrc addr 1 1 true).freeIdx = [0] := by
    intro addr; simp [Src.freeIdx, toySrc, List.range_succ]
  refine ⟨s2, s3, ?_, hs2, ?_, ?_⟩
  · simp only [run, step, q1, c1, d1, Res.bind_ok]
  · rw [e1, D3, D2, d6, hf1, hs2, hk0', hk1']
    have hpd : priorDerivs [((0 : Nat), toySrc 10 1 1 true), (1, toySrc 11 1 1 true)] = [0, 0] := by
      simp [priorDerivs, toySrc]
    rw [hpd]
    simp only [List.not_mem_nil, not_false_iff, decide_true, List.filter_true, List.map_cons,
      List.map_nil, hfi, List.flatten_cons, List.flatten_nil, List.append_nil, List.cons_append,
      List.nil_append, List.length_cons, List.length_nil, Nat.sub_self, List.replicate_zero,
      List.zipWith_cons_cons, List.zipWith_nil_left, hG, hD]
    norm_num
  · rw [hs2, hk0', hk1']
    have hsorted : StdMap.Sorted [((0 : Nat), toySrc 10 1 1 true), (1, toySrc 11 1 1 true)] := by
      rw [← hs2]; exact d2.inv.sorted
    have htot : ∀ p < 2, total toy [((0 : Nat), toySrc 10 1 1 true), (1, toySrc 11 1 1 true)] 0 p = 2 := by
      intro p hp
      have h1 := toy_counts 10 1 1 true 1 p hp
      have h2 := toy_counts 11 1 1 true 1 p hp
      have h1' : counts toy (toySrc 10 1 1 true) (toySrc 10 1 1 true).vals 0 p = 1 * 1 := h1
      have h2' : counts toy (toySrc 11 1 1 true) (toySrc 11 1 1 true).vals 0 p = 1 * 1 := h2
      unfold total
      simp only [List.map_cons, List.map_nil, List.sum_cons, List.sum_nil, add_zero, h1', h2']
      norm_num
    have hd := hasDerivAt_logLike (e := toy) _ hsorted (n := 0) (σ := toySrc 10 1 1 true) rfl
      (toySrc_differentiable _ _ _ _) (i := 0) (by rw [hfi]; simp) 0 1
      (by
        intro k _ h2 p hp _
        obtain rfl : k = 0 := by omega
        rw [htot p hp]; norm_num)
    have hge : gradEntry toy [((0 : Nat), toySrc 10 1 1 true), (1, toySrc 11 1 1 true)] 0 1
        (toySrc 10 1 1 true) 0 = -5/4 := by
      unfold gradEntry
      rw [hG]
      have hdp : dprior (toySrc 10 1 1 true) 0 = 0 := rfl
      rw [hdp, htot 0 (by omega)]
      have e1 : val toy.data (0 * toy.npix + 0) = 1 / 2 := rfl
      rw [e1]
      norm_num
    rw [hge] at hd
    exact hd

/-! ### C44 -/

/-- C44 fails: in a likelihood without fixed sources, changing the energy-dispersion
setting makes the next evaluation read past the end of an empty vector, whatever the free
sources, data and response. -/
theorem C44_edisp_change_violates (e : Env) (st : St ν) (ev : Int) (hne : ev ≠ e.ev)
    (hfree : ∀ x ∈ st.srcs, x.2.fixed = false) (hnames : st.fixedNames = [])
    (hk : st.kmin < st.kmax) : value e (setEdispVal e st ev) = .ub := by
  unfold setEdispVal
  rw [if_neg hne]
  set s : St ν := { st with cacheEv := ev, fixedCounts := [], fixedSpec := ⟨[], [], [], []⟩ } with hs
  have hnow : fixedNow s.srcs = [] := by
    unfold fixedNow
    have : st.srcs.filter (fun x => x.2.fixed) = [] := by
      rw [List.filter_eq_nil_iff]
      intro x hx; simp [hfree x hx]
    rw [this]; rfl
  have hloop : ∀ l : List (ν × Src), (∀ x ∈ l, x.2.fixed = false) →
      changedLoop e l s false = .ok (s, false) := by
    intro l hl
    induction l with
    | nil => rfl
    | cons x l ih =>
      unfold changedLoop
      rw [if_neg (by simp [hl x (by simp)])]
      exact ih (fun y hy => hl y (List.mem_cons_of_mem _ hy))
  have hupd : updateFixed e s = .ok s := by
    unfold updateFixed fixedModelUpdated
    rw [if_neg (by rw [not_and, not_not]; intro _; exact hnames)]
    have hn' : s.fixedNames = [] := hnames
    simp only [hnow, hn', List.any_nil, List.length_nil, ne_eq, not_true, decide_false,
      Bool.or_false]
    rw [hloop s.srcs hfree, Res.bind_ok]
    rfl
  have hfix : fixedNpred s true = .ub := by
    unfold fixedNpred
    have : s.kmax - s.kmin = (st.kmax - st.kmin - 1) + 1 := by
      change st.kmax - st.kmin = _; omega
    rw [this, loop]
    rw [vget_ge _ _ (by simp [hs])]
    rfl
  have hcopy : copyOnZeros s.fixedCounts e.filled.length =
      .ok (List.replicate e.filled.length 0) := by
    unfold copyOnZeros
    rw [if_pos (by simp [hs])]
    simp [hs]
  unfold value computeModel
  rw [hupd, Res.bind_ok, hcopy, Res.bind_ok, hfix]
  rfl

/-- An object with one free source meets the hypotheses. -/
example : ∃ st, run toy (St.new toy) [.addSource 0 (toySrc 10 1 1 true)] = .ok st ∧
    value toy (setEdispVal toy st 2) = .ub := by
  obtain ⟨s0, q1, q2, q3, q4⟩ := addSource_ok (rel_new (ν := Nat) (e := toy) (L := toyL)) toy_ok
    (by decide) (n := 0) (σ := toySrc 10 1 1 true) (by simp [St.new, keys]) (toySrc_ok _ _ _ _) rfl
  refine ⟨s0, by simp only [run, step, q1], ?_⟩
  refine C44_edisp_change_violates toy s0 2 (by decide) ?_ (q4 rfl).2 ?_
  · intro x hx
    rw [q2.srcs] at hx
    simp [Ideal.step, Ideal.new, keys, put] at hx
    subst hx; rfl
  · rw [q2.kmin, q2.kmax]
    simp [Ideal.step, Ideal.new, keys, put, toy]

end Verif.Binned
