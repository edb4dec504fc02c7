import Verif.Attrib.Lemmas
import Verif.Binned.Props
set_option linter.unusedVariables false
set_option linter.unusedSimpArgs false
set_option linter.unusedSectionVars false
/-
C114: the observed counts a source accounts for.
-/
namespace Verif.Attrib
open Verif.Vec Verif.Binned
open Verif.StdMap (find put erase keys)
open scoped BigOperators

variable {ν : Type} [LinearOrder ν]

/-- After any covered history that ends with the likelihood told of the changes, the spectra of any
sources of the model, asked for one after the other, are for each selected bin the observed counts
times the share of the source, summed over the pixels with positive weight.  The bins are the selected
ones; all bins can be asked for if all are selected. -/
theorem C114_spectrum_partial (e : Env) (he : e.Ok) (hev : 0 ≤ e.ev) (L : ν → Bool × (Nat → List ℝ))
    (ops : List (Op ν)) (hc : CoveredRun e L (Ideal.new e) ops) (raw : List ℝ) (hd : Spec.Data e raw)
    (a : Binned.Ideal ν) (ha : a = (Ideal.new e).run ops) (hs : a.stale = false) (hpos : Spec.Covers e raw a)
    (hkk : a.kmin ≤ a.kmax) (u : Bool) (hu : u = false → a.kmin = 0 ∧ a.kmax = e.nebins)
    (xs : List (ν × Src)) (hx : ∀ x ∈ xs, x ∈ a.srcs) :
    ∃ st st', run e (St.new e) ops = .ok st ∧
      spectra e raw u (xs.map Prod.fst) st = .ok (st', xs.map (fun x =>
        (List.range (a.kmax - a.kmin)).map (fun i => Spec.attributed e raw a.srcs x.2 (a.kmin + i)))) := by
  obtain ⟨st, h1, h2⟩ := run_rel he hev ops _ _ (rel_new (e := e) (L := L)) hc
  rw [← ha] at h2
  have hsort : StdMap.Sorted a.srcs := by rw [← h2.srcs]; exact h2.inv.sorted
  obtain ⟨st', h3, -⟩ := spectra_rel he hev hs hd hpos hkk hu xs
    (fun x h => StdMap.find_of_mem hsort (hx x h)) h2
  exact ⟨st, st', h1, h3⟩

theorem sum_swap {α : Type} (l : List α) (n : Nat) (F : α → Nat → ℝ) :
    (l.map (fun x => ∑ p ∈ Finset.range n, F x p)).sum = ∑ p ∈ Finset.range n, (l.map (fun x => F x p)).sum := by
  induction l with
  | nil => simp
  | cons x l ih => simp only [List.map_cons, List.sum_cons, ih, Finset.sum_add_distrib]

theorem sum_mul_div {α : Type} (l : List α) (o t : ℝ) (f : α → ℝ) :
    (l.map (fun x => o * (f x / t))).sum = o * ((l.map f).sum / t) := by
  induction l with
  | nil => simp
  | cons x l ih => simp only [List.map_cons, List.sum_cons, ih]; ring

/-- The spectra of all sources of the model add up, bin by bin, to the observed counts of the pixels
with positive weight; without weights, to the observed counts of the bin. -/
theorem C114_sum (e : Env) (he : e.Ok) (hev : 0 ≤ e.ev) (L : ν → Bool × (Nat → List ℝ))
    (ops : List (Op ν)) (hc : CoveredRun e L (Ideal.new e) ops) (raw : List ℝ) (hd : Spec.Data e raw)
    (a : Binned.Ideal ν) (ha : a = (Ideal.new e).run ops) (hs : a.stale = false) (hpos : Spec.Covers e raw a)
    (hkk : a.kmin ≤ a.kmax) :
    ∃ st st' ls, run e (St.new e) ops = .ok st ∧
      spectra e raw true (a.srcs.map Prod.fst) st = .ok (st', ls) ∧
      (∀ l ∈ ls, l.length = a.kmax - a.kmin) ∧
      (∀ i < a.kmax - a.kmin, (ls.map (fun l => val l i)).sum =
        ∑ p ∈ Finset.range e.npix, if 0 < wt e (a.kmin + i) p then Spec.obs e raw (a.kmin + i) p else 0) ∧
      (e.weights = none → ∀ i < a.kmax - a.kmin, (ls.map (fun l => val l i)).sum =
        ∑ p ∈ Finset.range e.npix, Spec.obs e raw (a.kmin + i) p) := by
  obtain ⟨st, st', h1, h2⟩ := C114_spectrum_partial e he hev L ops hc raw hd a ha hs hpos hkk true
    (fun h => by cases h) a.srcs (fun x h => h)
  have hsum : ∀ i < a.kmax - a.kmin, ((a.srcs.map (fun x =>
        (List.range (a.kmax - a.kmin)).map (fun i => Spec.attributed e raw a.srcs x.2 (a.kmin + i)))).map
        (fun l => val l i)).sum =
      ∑ p ∈ Finset.range e.npix, if 0 < wt e (a.kmin + i) p then Spec.obs e raw (a.kmin + i) p else 0 := by
    intro i hi
    rw [List.map_map]
    have : (a.srcs.map ((fun l => val l i) ∘ fun x =>
        (List.range (a.kmax - a.kmin)).map (fun i => Spec.attributed e raw a.srcs x.2 (a.kmin + i)))) =
        a.srcs.map (fun x => Spec.attributed e raw a.srcs x.2 (a.kmin + i)) := by
      apply List.map_congr_left
      intro x _
      simp only [Function.comp]
      rw [val_map_range _ hi]
    rw [this]
    unfold Spec.attributed
    rw [sum_swap]
    apply Finset.sum_congr rfl
    intro p hp
    rw [Finset.mem_range] at hp
    by_cases hw : 0 < wt e (a.kmin + i) p
    · simp only [if_pos hw]
      rw [sum_mul_div]
      have ht : (a.srcs.map (fun x => counts e x.2 x.2.vals (a.kmin + i) p)).sum =
        total e a.srcs (a.kmin + i) p := rfl
      rw [ht]
      rcases (hd.nonneg (a.kmin + i) p).lt_or_eq with h | h
      · rw [div_self (hpos _ (by omega) (by omega) p hp h).ne', mul_one]
      · rw [← h, zero_mul]
    · simp only [if_neg hw]
      simp
  refine ⟨st, st', _, h1, h2, ?_, hsum, ?_⟩
  · intro l hl
    obtain ⟨x, _, rfl⟩ := List.mem_map.1 hl
    simp
  · intro hw i hi
    rw [hsum i hi]
    apply Finset.sum_congr rfl
    intro p _
    have : wt e (a.kmin + i) p = 1 := by unfold wt; rw [hw]
    rw [this, if_pos one_pos]

/-! ### example -/

/-- The counts of the example: one in the first pixel. -/
theorem toy_data : Spec.Data toy [1, 0] where
  len := rfl
  nonneg := by
    intro k p
    unfold Spec.obs val
    rcases h : k * toy.npix + p with _ | _ | m <;> simp
  wt := by
    intro k p
    unfold wt
    simp only [toy]
    unfold val
    rcases h : k * 2 + p with _ | _ | n <;> norm_num
  data := by
    intro k hk p hp
    obtain rfl : k = 0 := by simp [toy] at hk; omega
    have hp2 : p < 2 := hp
    obtain rfl | rfl : p = 0 ∨ p = 1 := by omega
    · rw [toy_wt0]; simp [toy, val, Spec.obs]
    · rw [toy_wt1]; simp [toy, val, Spec.obs]

/-- A fixed and a free source. -/
example : CoveredRun toy toyL (Ideal.new toy) toyOps ∧ ((Ideal.new toy).run toyOps).stale = false ∧
    Spec.Covers toy [1, 0] ((Ideal.new toy).run toyOps) ∧
    ((Ideal.new toy).run toyOps).kmin ≤ ((Ideal.new toy).run toyOps).kmax := by
  have h0 : ((Ideal.new toy).run toyOps).kmin = 0 := by
    simp [toyOps, Ideal.run, Ideal.step, Ideal.new, StdMap.keys, StdMap.put, StdMap.find, toySrc]
  have h1 : ((Ideal.new toy).run toyOps).kmax = 1 := by
    simp [toyOps, Ideal.run, Ideal.step, Ideal.new, StdMap.keys, StdMap.put, StdMap.find, toySrc, toy]
  refine ⟨toyOps_covered, ?_, ?_, by omega⟩
  · simp [toyOps, Ideal.run, Ideal.step, Ideal.new, StdMap.keys, StdMap.put, StdMap.find, toySrc]
  · intro k _ hk p hp _
    obtain rfl : k = 0 := by omega
    rw [toyOps_total p hp]; norm_num

/-! ### violations -/

/-- A pixel with counts but no predicted counts: the spectrum of every source is not a number. -/
theorem C114_zero_violates (e : Env) (he : e.Ok) (hev : 0 ≤ e.ev) (L : ν → Bool × (Nat → List ℝ))
    (ops : List (Op ν)) (hc : CoveredRun e L (Ideal.new e) ops) (raw : List ℝ)
    (hraw : raw.length = e.nebins * e.npix)
    (a : Binned.Ideal ν) (ha : a = (Ideal.new e).run ops) (hs : a.stale = false) (k p : Nat) (h1 : a.kmin ≤ k)
    (h2 : k < a.kmax) (hp : p < e.npix) (hdat : 0 < val e.data (k * e.npix + p))
    (hz : total e a.srcs k p = 0) (x : ν × Src) (hx : x ∈ a.srcs) :
    ∃ st, run e (St.new e) ops = .ok st ∧ countsSpectrum e raw st x.1 true = .ub := by
  have lay := lay_of he
  obtain ⟨st, r1, h⟩ := run_rel he hev ops _ _ (rel_new (e := e) (L := L)) hc
  rw [← ha] at h
  refine ⟨st, r1, ?_⟩
  have hsort : StdMap.Sorted a.srcs := by rw [← h.srcs]; exact h.inv.sorted
  have hran : a.kmax ≤ e.nebins := by rw [← h.kmax]; exact h.range
  obtain ⟨st1, y, f1, f2, f3, f4, f5, f6, f7⟩ := fresh_ok h he hev hs
  have hn1 : find st1.srcs x.1 = some x.2 := by
    rw [f3, h.srcs]; exact StdMap.find_of_mem hsort hx
  obtain ⟨st2, out, s1, s2, s3, s4, s5⟩ := sourceCounts_ok f2 he hev hn1
  have hev2 := evaluated_core f7 f2 s3
  obtain ⟨j, j1, j2, j3⟩ := lay_exists lay (by omega) hp hdat
  unfold countsSpectrum limits
  rw [if_pos rfl, h.kmin, h.kmax]
  simp only
  rw [if_neg (by omega), f1, Res.bind_ok]
  simp only
  rw [s1, Res.bind_ok]
  simp only
  rw [bins_ub lay hraw hev2.modelLen s4 hran h1 h2 (binCounts_ub lay hraw hev2.modelLen s4 (by omega) j1 j2 _)]
  · rfl
  · rw [hev2.model k (by rw [s3.kmin, f4, h.kmin]; exact h1) (by rw [s3.kmax, f5, h.kmax]; exact h2)
        j j1 j2, s3.srcs, f3, h.srcs, j3, hz]

/-- The example with a source whose parameter is zero. -/
example : total toy [((0 : Nat), toySrc 10 1 0 false)] 0 0 = 0 ∧ 0 < val toy.data (0 * toy.npix + 0) := by
  have h2 : counts toy (toySrc 10 1 0 false) (toySrc 10 1 0 false).vals 0 0 = 0 := by
    have := toy_counts 10 1 0 false 0 0 (by omega)
    rw [one_mul] at this; exact this
  refine ⟨?_, by simp [toy, val]⟩
  unfold total
  simp only [List.map_cons, List.map_nil, List.sum_cons, List.sum_nil, h2]
  norm_num

/-- After the energy range has been restricted, the spectrum over all bins is not a number if there are
counts in a bin left out. -/
theorem C114_range_violates (e : Env) (he : e.Ok) (hev : 0 ≤ e.ev) (L : ν → Bool × (Nat → List ℝ))
    (ops : List (Op ν)) (kmin kmax : Nat) (hkk : kmin ≤ kmax) (hk2 : kmax ≤ e.nebins)
    (hc : CoveredRun e L (Ideal.new e) ops) (raw : List ℝ) (hraw : raw.length = e.nebins * e.npix)
    (a : Binned.Ideal ν) (ha : a = (Ideal.new e).run ops) (k p : Nat) (hk : k < e.nebins)
    (hout : k < kmin ∨ kmax ≤ k) (hp : p < e.npix) (hdat : 0 < val e.data (k * e.npix + p))
    (x : ν × Src) (hx : x ∈ a.srcs) :
    ∃ st st', run e (St.new e) ops = .ok st ∧ step e st (.setKlims kmin kmax) = .ok st' ∧
      countsSpectrum e raw st' x.1 false = .ub := by
  have lay := lay_of he
  obtain ⟨st, r1, h⟩ := run_rel he hev ops _ _ (rel_new (e := e) (L := L)) hc
  rw [← ha] at h
  refine ⟨st, setKlims st kmin kmax, r1, rfl, ?_⟩
  have hinv : Inv e L (setKlims st kmin kmax) :=
    ⟨h.inv.sorted, h.inv.sortedM, h.inv.src, h.inv.map, h.inv.cacheEv, h.inv.nodup, h.inv.fixedIn,
      h.inv.countsLen, h.inv.countsVal, h.inv.sized, h.inv.specVal⟩
  have hsort : StdMap.Sorted a.srcs := by rw [← h.srcs]; exact h.inv.sorted
  obtain ⟨st1, y, f1, f2, f3, f4, f5, f6, f7⟩ := computeModel_plain hinv he hev (show kmax ≤ e.nebins from hk2)
  have hn1 : find st1.srcs x.1 = some x.2 := by
    rw [f3]
    change find st.srcs x.1 = _
    rw [h.srcs]; exact StdMap.find_of_mem hsort hx
  obtain ⟨st2, out, s1, s2, s3, s4, s5⟩ := sourceCounts_ok f2 he hev hn1
  have hev2 := evaluated_core f7 f2 s3
  obtain ⟨j, j1, j2, j3⟩ := lay_exists lay hk hp hdat
  have hzero : val st1.model j = 0 := by
    have f1' := f1
    unfold computeModel at f1'
    obtain ⟨t1, d0, f1'⟩ := Res.bind_eq_ok.1 f1'
    obtain ⟨mc, d1, f1'⟩ := Res.bind_eq_ok.1 f1'
    obtain ⟨np, d2, f1'⟩ := Res.bind_eq_ok.1 f1'
    obtain ⟨⟨t2, out2, x2⟩, d3, f1'⟩ := Res.bind_eq_ok.1 f1'
    simp only at f1'
    obtain ⟨model, d4, f1'⟩ := Res.bind_eq_ok.1 f1'
    cases f1'
    have e1 : t2.kmin = kmin := f4
    have e2 : t2.kmax = kmax := f5
    rw [e1, e2] at d4
    change val model j = 0
    obtain ⟨t3, u1, u2, u3, u4, u5, u6, u7⟩ := updateFixed_ok hinv he hev
    rw [u1] at d0
    cases d0
    have hmc : mc.length = e.filled.length := by
      unfold copyOnZeros at d1
      rw [if_pos (by rw [u2.countsLen])] at d1
      cases d1
      simp [u2.countsLen]
    obtain ⟨t4, out4, v1, v2, v3, v4, v5⟩ := evalLoop_ok he hev t1.srcs t1 mc np u2 (by rw [u5]; exact hk2)
      (fun x hx => StdMap.find_of_mem u2.sorted hx) hmc
    obtain ⟨y', hy'⟩ := evalLoop_plain he hev t1.srcs t1 mc np np u2 (by rw [u5]; exact hk2)
      (fun x hx => StdMap.find_of_mem u2.sorted hx) hmc v1
    rw [hy'] at d3
    cases d3
    refine selectModel_outside lay hk2 hkk d4 v4 j ?_
    rcases hout with ho | ho
    · left
      have := lay.mono (k + 1) kmin (by omega) (by omega)
      omega
    · right
      have := lay.mono kmax k (by omega) (by omega)
      omega
  have hlim : limits e (setKlims st kmin kmax) false = (0, e.nebins) := rfl
  have hfr : fresh e (setKlims st kmin kmax) = .ok (st1, y) := by
    unfold fresh
    have hcur : (setKlims st kmin kmax).current = false := rfl
    rw [hcur, if_neg (by simp), f1]
  unfold countsSpectrum
  rw [hlim]
  simp only
  rw [if_neg (by omega), hfr, Res.bind_ok]
  simp only
  rw [s1, Res.bind_ok]
  simp only
  rw [bins_ub lay hraw hev2.modelLen s4 le_rfl (Nat.zero_le k) hk
    (binCounts_ub lay hraw hev2.modelLen s4 hk j1 j2 _)]
  · rfl
  · rw [s3.model, hzero]

/-- The example with an empty selection. -/
example : 0 < val toy.data (0 * toy.npix + 0) ∧ (0, toySrc 10 1 2 false) ∈ ((Ideal.new toy).run toyOps).srcs := by
  rw [toyOps_srcs]
  exact ⟨by simp [toy, val], List.mem_cons_self⟩

/-- If the parameters of a source were changed without telling the likelihood object, its new counts are
compared with the old model. -/
theorem C114_stale_violates (e : Env) (he : e.Ok) (hev : 0 ≤ e.ev) (L : ν → Bool × (Nat → List ℝ))
    (ops : List (Op ν)) (hc : CoveredRun e L (Ideal.new e) ops) (raw : List ℝ) (hd : Spec.Data e raw)
    (a : Binned.Ideal ν) (ha : a = (Ideal.new e).run ops) (hpos : Spec.Covers e raw a)
    (hkk : a.kmin ≤ a.kmax) (n : ν) (σ : Src) (hx : (n, σ) ∈ a.srcs) (ps : List Par) :
    ∃ st st1 st2 st3 v, run e (St.new e) ops = .ok st ∧ step e st .value = .ok st1 ∧
      step e st1 (.setPars n ps false) = .ok st2 ∧ countsSpectrum e raw st2 n true = .ok (st3, v) ∧
      v = (List.range (a.kmax - a.kmin)).map (fun i => ∑ p ∈ Finset.range e.npix,
        if 0 < wt e (a.kmin + i) p then Spec.obs e raw (a.kmin + i) p *
          (counts e σ (ps.map Par.value) (a.kmin + i) p / total e a.srcs (a.kmin + i) p) else 0) := by
  have lay := lay_of he
  obtain ⟨st, r1, h⟩ := run_rel he hev ops _ _ (rel_new (e := e) (L := L)) hc
  rw [← ha] at h
  obtain ⟨st1, w1, c2, c3, c4, c5, c6, c7⟩ := value_ok h.inv he hev h.range
  have hsort : StdMap.Sorted a.srcs := by rw [← h.srcs]; exact h.inv.sorted
  have hran : a.kmax ≤ e.nebins := by rw [← h.kmax]; exact h.range
  have hn1 : find st1.srcs n = some σ := by
    rw [c3, h.srcs]; exact StdMap.find_of_mem hsort hx
  set st2 : St ν := { st1 with srcs := put st1.srcs n { σ with pars := ps },
                               current := st1.current } with hst2
  have hset : setPars st1 n ps false = .ok st2 := by
    unfold setPars; rw [hn1]; rfl
  have hinv2 : Inv e L st2 := setPars_inv c2 hn1 ps st1.current
  have hn2 : find st2.srcs n = some { σ with pars := ps } := by
    change find (put st1.srcs n _) n = _
    rw [StdMap.find_put c2.sorted, if_pos rfl]
  obtain ⟨st3, out, s1, s2, s3, s4, s5⟩ := sourceCounts_ok hinv2 he hev hn2
  refine ⟨st, st1, st2, st3, _, r1, ?_, hset, ?_, rfl⟩
  · unfold step
    rw [w1, Res.bind_ok]
  · have k1 : st1.kmin = a.kmin := by rw [c4, h.kmin]
    have k2 : st1.kmax = a.kmax := by rw [c5, h.kmax]
    have hlim : limits e st2 true = (a.kmin, a.kmax) := by
      rw [← k1, ← k2]; rfl
    have hfr : fresh e st2 = .ok (st2, 0) := by
      unfold fresh
      rw [if_pos (show st2.current = true from c6)]
    unfold countsSpectrum
    rw [hlim]
    simp only
    rw [if_neg (by omega), hfr, Res.bind_ok]
    simp only
    rw [s1, Res.bind_ok]
    simp only
    have hmod : st3.model = st1.model := s3.model
    have hml : st3.model.length = e.filled.length := by rw [hmod]; exact c7.modelLen
    rw [bins_ok (fun k => ∑ p ∈ Finset.range e.npix, if 0 < wt e k p then Spec.obs e raw k p *
      (counts e σ (ps.map Par.value) k p / total e a.srcs k p) else 0), Res.bind_ok]
    intro k h1 h2
    rw [binCounts_ok lay hd.len hml s4 (by omega) (fun p => counts e σ (ps.map Par.value) k p)
      (fun p => total e a.srcs k p)]
    · rw [attributed_eq hd (by omega)]
    · intro j h3 h4
      exact s5 k (by omega) j h3 h4
    · intro j h3 h4
      rw [hmod, c7.model k (by rw [k1]; exact h1) (by rw [k2]; exact h2) j h3 h4, c3, h.srcs]
    · intro p hp hdat
      rw [hd.data k (by omega) p hp] at hdat
      have : 0 < Spec.obs e raw k p := by
        rcases (hd.nonneg k p).lt_or_eq with h' | h'
        · exact h'
        · rw [← h', mul_zero] at hdat; exact absurd hdat (lt_irrefl _)
      exact (hpos k h1 h2 p hp this).ne'

/-- The parameter of the only source is doubled: two counts are attributed to it, of one observed. -/
example : ∃ st st1 st2 st3, run toy (St.new toy) [.addSource 1 (toySrc 11 1 3 true)] = .ok st ∧
    step toy st .value = .ok st1 ∧
    step toy st1 (.setPars 1 [⟨6, true, fun _ => 0, fun _ => 0⟩] false) = .ok st2 ∧
    countsSpectrum toy [1, 0] st2 1 true = .ok (st3, [2]) := by
  have hsrcs : ((Ideal.new toy : Binned.Ideal Nat).run [.addSource 1 (toySrc 11 1 3 true)]).srcs =
      [(1, toySrc 11 1 3 true)] := by
    simp [Ideal.run, Ideal.step, Ideal.new, StdMap.keys, StdMap.put]
  have h0 : ((Ideal.new toy : Binned.Ideal Nat).run [.addSource 1 (toySrc 11 1 3 true)]).kmin = 0 := by
    simp [Ideal.run, Ideal.step, Ideal.new, StdMap.keys]
  have h1 : ((Ideal.new toy : Binned.Ideal Nat).run [.addSource 1 (toySrc 11 1 3 true)]).kmax = 1 := by
    simp [Ideal.run, Ideal.step, Ideal.new, StdMap.keys, toy]
  have htot : ∀ p < 2, total toy ((Ideal.new toy : Binned.Ideal Nat).run [.addSource 1 (toySrc 11 1 3 true)]).srcs 0 p = 3 := by
    intro p hp
    rw [hsrcs]
    have h2 : counts toy (toySrc 11 1 3 true) (toySrc 11 1 3 true).vals 0 p = 3 := by
      have := toy_counts 11 1 3 true 3 p hp
      rw [one_mul] at this; exact this
    unfold total
    simp only [List.map_cons, List.map_nil, List.sum_cons, List.sum_nil, h2]
    norm_num
  obtain ⟨st, st1, st2, st3, v, a1, a2, a3, a4, a5⟩ := C114_stale_violates toy toy_ok (by decide) toyL
    [.addSource 1 (toySrc 11 1 3 true)] ⟨⟨toySrc_ok _ _ _ _, rfl⟩, trivial⟩ [1, 0] toy_data _ rfl
    (by
      intro k _ hk p hp _
      rw [h1] at hk
      obtain rfl : k = 0 := by omega
      rw [htot p hp]; norm_num)
    (by rw [h0, h1]; omega) 1 (toySrc 11 1 3 true) (by rw [hsrcs]; exact List.mem_cons_self)
    [⟨6, true, fun _ => 0, fun _ => 0⟩]
  refine ⟨st, st1, st2, st3, a1, a2, a3, ?_⟩
  rw [a4, a5]
  congr 2
  rw [h0, h1]
  have hnp : toy.npix = 2 := rfl
  simp only [Nat.sub_zero, List.range_one, List.map_cons, List.map_nil, Nat.add_zero, hnp,
    Finset.sum_range_succ, Finset.sum_range_zero]
  rw [htot 0 (by omega), htot 1 (by omega), toy_counts _ _ _ _ _ _ (by omega),
    toy_counts _ _ _ _ _ _ (by omega), toy_wt0, toy_wt1]
  have o0 : Spec.obs toy [1, 0] 0 0 = 1 := rfl
  have o1 : Spec.obs toy [1, 0] 0 1 = 0 := rfl
  rw [o0, o1]
  norm_num

/-- The example with weight zero in the second pixel, which has a count. -/
noncomputable def toy0 : Env := { toy with weights := some [1/2, 0] }

theorem toy0_ok : toy0.Ok where
  data := rfl
  filled := toy_ok.filled
  weights := by intro w hw; simp only [toy0] at hw; injection hw with hw; rw [← hw]; rfl
  nmeas := rfl
  bins := rfl
  cols := rfl
  col := toy_ok.col

theorem toy0_data : Spec.Data toy0 [1, 1] where
  len := rfl
  nonneg := by
    intro k p
    unfold Spec.obs val
    rcases h : k * toy0.npix + p with _ | _ | m <;> simp
  wt := by
    intro k p
    unfold wt
    simp only [toy0]
    unfold val
    rcases h : k * toy.npix + p with _ | _ | n <;> norm_num
  data := by
    intro k hk p hp
    obtain rfl : k = 0 := by simp [toy0, toy] at hk; omega
    have hp2 : p < 2 := hp
    obtain rfl | rfl : p = 0 ∨ p = 1 := by omega
    · simp [toy0, toy, val, Spec.obs, wt]
    · simp [toy0, toy, val, Spec.obs, wt]

/-- With weights the spectra of all sources need not add up to the observed counts: two counts, one of
them in a pixel with weight zero; the spectra add up to one. -/
theorem C114_weights_violates : ∃ st st' ls,
    run toy0 (St.new toy0) [.addSource 0 (toySrc 10 1 2 false), .addSource 1 (toySrc 11 1 3 true),
      Op.setKlims 0 1] = .ok st ∧
    spectra toy0 [1, 1] true [0, 1] st = .ok (st', ls) ∧
    (ls.map (fun l => val l 0)).sum = 1 ∧ ∑ p ∈ Finset.range toy0.npix, Spec.obs toy0 [1, 1] 0 p = 2 := by
  set ops : List (Op Nat) := [.addSource 0 (toySrc 10 1 2 false), .addSource 1 (toySrc 11 1 3 true),
      .setKlims 0 1] with hops
  have hsrcs : ((Ideal.new toy0 : Binned.Ideal Nat).run ops).srcs =
      [(0, toySrc 10 1 2 false), (1, toySrc 11 1 3 true)] := by
    simp [hops, Ideal.run, Ideal.step, Ideal.new, StdMap.keys, StdMap.put]
  have h0 : ((Ideal.new toy0 : Binned.Ideal Nat).run ops).kmin = 0 := by
    simp [hops, Ideal.run, Ideal.step, Ideal.new, StdMap.keys]
  have h1 : ((Ideal.new toy0 : Binned.Ideal Nat).run ops).kmax = 1 := by
    simp [hops, Ideal.run, Ideal.step, Ideal.new, StdMap.keys]
  have hst : ((Ideal.new toy0 : Binned.Ideal Nat).run ops).stale = false := by
    simp [hops, Ideal.run, Ideal.step, Ideal.new, StdMap.keys]
  have htot : ∀ p < 2, total toy0 ((Ideal.new toy0 : Binned.Ideal Nat).run ops).srcs 0 p = 5 := by
    intro p hp
    rw [hsrcs]
    have g1 : counts toy0 (toySrc 10 1 2 false) (toySrc 10 1 2 false).vals 0 p = 2 := by
      have := toy_counts 10 1 2 false 2 p hp
      rw [one_mul] at this; exact this
    have g2 : counts toy0 (toySrc 11 1 3 true) (toySrc 11 1 3 true).vals 0 p = 3 := by
      have := toy_counts 11 1 3 true 3 p hp
      rw [one_mul] at this; exact this
    unfold total
    simp only [List.map_cons, List.map_nil, List.sum_cons, List.sum_nil, g1, g2]
    norm_num
  obtain ⟨st, st', ls, a1, a2, a3, a4, -⟩ := C114_sum toy0 toy0_ok (by decide) toyL ops
    ⟨⟨⟨rfl, fun _ => rfl, fun _ _ => rfl⟩, rfl⟩, ⟨⟨rfl, fun _ => rfl, fun _ _ => rfl⟩, rfl⟩, le_rfl, trivial⟩ [1, 1] toy0_data _ rfl hst
    (by
      intro k _ hk p hp _
      rw [h1] at hk
      obtain rfl : k = 0 := by omega
      rw [htot p hp]; norm_num)
    (by rw [h0, h1]; omega)
  refine ⟨st, st', ls, a1, by rw [hsrcs] at a2; exact a2, ?_, ?_⟩
  · rw [a4 0 (by rw [h0, h1]; omega), h0]
    have hnp : toy0.npix = 2 := rfl
    have w0 : wt toy0 (0 + 0) 0 = 1 / 2 := rfl
    have w1 : wt toy0 (0 + 0) 1 = 0 := rfl
    have o0 : Spec.obs toy0 [1, 1] (0 + 0) 0 = 1 := rfl
    rw [hnp, Finset.sum_range_succ, Finset.sum_range_succ, Finset.sum_range_zero, w0, w1, o0]
    norm_num
  · have hnp : toy0.npix = 2 := rfl
    have o0 : Spec.obs toy0 [1, 1] 0 0 = 1 := rfl
    have o1 : Spec.obs toy0 [1, 1] 0 1 = 1 := rfl
    rw [hnp, Finset.sum_range_succ, Finset.sum_range_succ, Finset.sum_range_zero, o0, o1]
    norm_num

end Verif.Attrib
