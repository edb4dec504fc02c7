import Verif.Redata.Lemmas3
import Verif.Binned.Props
set_option linter.unusedVariables false
set_option linter.unusedSimpArgs false
set_option linter.unusedSectionVars false
namespace Verif.Redata

open Verif.Vec Verif.Edisp Verif.Drm Verif.Binned Spec
open Verif.StdMap (find put erase keys)
open scoped BigOperators

variable {ν : Type} [LinearOrder ν] {e e' : Env} {L : ν → Bool × (Nat → List ℝ)} {st : St ν}

/-- What follows a replacement, if it starts with a call that makes the model be computed again. -/
theorem restart (he : e'.Ok) (hev : 0 ≤ e'.ev) {a : Ideal ν} (h : Inv e' L st) (h1 : st.srcs = a.srcs) (h2 : st.kmin = a.kmin)
    (h3 : st.kmax = a.kmax) (h4 : a.kmax ≤ e'.nebins) (hcur : AllCur st) {op : Op ν} (hop : Restart op) (ops : List (Op ν))
    (hc : CoveredRun e' L a (op :: ops)) :
    ∃ st', run e' st (op :: ops) = .ok st' ∧ Rel e' L (a.run (op :: ops)) st' := by
  cases op with
  | value =>
    obtain ⟨st2, g1, g2⟩ := from_inv a h he hev h1 h2 h3 h4
    obtain ⟨st3, g3, g4⟩ := run_rel he hev ops _ _ g2 hc.2
    refine ⟨st3, ?_, g4⟩
    simp only [run, step]
    rw [g1, Res.bind_ok]
    exact g3
  | setKlims x y =>
    have hy : y ≤ e'.nebins := hc.1
    have hr : Rel e' L (a.step (.setKlims x y)) (setKlims st x y) :=
      ⟨⟨h.sorted, h.sortedM, h.src, h.map, h.cacheEv, h.nodup, h.fixedIn, h.countsLen, h.countsVal, h.sized, h.specVal⟩,
        h1, rfl, rfl, hy, (fun hcc => by cases hcc), fun n hn _ σ m hs hm => hcur n hn σ m hs hm, fun _ => Or.inl rfl⟩
    obtain ⟨st3, g3, g4⟩ := run_rel he hev ops _ _ hr hc.2
    exact ⟨st3, g3, g4⟩
  | addSource => exact absurd hop id
  | deleteSource => exact absurd hop id
  | setPars => exact absurd hop id
  | getFreeDerivs => exact absurd hop id

/-- C134: the counts may be replaced (`setCountsMap`) after any covered history.  The evaluation that follows, and
every later one, gives the log likelihood of the new counts, for every covered history that starts with an
evaluation or a choice of the energy range. -/
theorem C134_counts_partial (e e' : Env) (he : e.Ok) (he' : e'.Ok) (hev : 0 ≤ e.ev) (hs : Alike e e')
    (hw : e'.weights = e.weights) (L : ν → Bool × (Nat → List ℝ)) (ops : List (Op ν))
    (hc : CoveredRun e L (Ideal.new e) ops) (a : Ideal ν) (ha : a = (Ideal.new e).run ops) :
    ∃ st st1, run e (St.new e) ops = .ok st ∧ setCounts e' st = .ok st1 ∧
      (∃ st2, value e' st1 = .ok (st2, logLike e' a.srcs a.kmin a.kmax)) ∧
      ∀ op later, Restart op → CoveredRun e' L a (op :: later) → ∃ st2 st3, run e' st1 (op :: later) = .ok st2 ∧
        value e' st2 = .ok (st3, logLike e' (a.run (op :: later)).srcs (a.run (op :: later)).kmin
          (a.run (op :: later)).kmax) := by
  obtain ⟨st, h1, h2⟩ := run_rel he hev ops _ _ (rel_new (e := e) (L := L)) hc
  rw [← ha] at h2
  have hev' : 0 ≤ e'.ev := by rw [hs.ev]; exact hev
  obtain ⟨st1, b1, b2, b3, b4, b5, b6, b7, b8⟩ := setCounts_ok h2.inv hs hw he' hev
  have g1 : st1.srcs = a.srcs := by rw [b3, h2.srcs]
  have g2 : st1.kmin = a.kmin := by rw [b5, h2.kmin]
  have g3 : st1.kmax = a.kmax := by rw [b6, h2.kmax]
  have g4 : a.kmax ≤ e'.nebins := by rw [hs.nebins, ← h2.kmax]; exact h2.range
  refine ⟨st, st1, h1, b1, ?_, ?_⟩
  · obtain ⟨st2, c1, -⟩ := from_inv a b2 he' hev' g1 g2 g3 g4
    exact ⟨st2, c1⟩
  · intro op later hop hl
    obtain ⟨st2, c1, c2⟩ := restart he' hev' b2 g1 g2 g3 g4 b8 hop later hl
    obtain ⟨st3, c3, -⟩ := value_rel c2 he' hev'
    exact ⟨st2, st3, c1, c3⟩

/-- C134: the same for new weights (`setWeightsMap`). -/
theorem C134_weights_partial (e e' : Env) (he : e.Ok) (he' : e'.Ok) (hev : 0 ≤ e.ev) (hs : Alike e e')
    (L : ν → Bool × (Nat → List ℝ)) (ops : List (Op ν))
    (hc : CoveredRun e L (Ideal.new e) ops) (a : Ideal ν) (ha : a = (Ideal.new e).run ops) :
    ∃ st st1, run e (St.new e) ops = .ok st ∧ setWeights e' st = .ok st1 ∧
      (∃ st2, value e' st1 = .ok (st2, logLike e' a.srcs a.kmin a.kmax)) ∧
      ∀ op later, Restart op → CoveredRun e' L a (op :: later) → ∃ st2 st3, run e' st1 (op :: later) = .ok st2 ∧
        value e' st2 = .ok (st3, logLike e' (a.run (op :: later)).srcs (a.run (op :: later)).kmin
          (a.run (op :: later)).kmax) := by
  obtain ⟨st, h1, h2⟩ := run_rel he hev ops _ _ (rel_new (e := e) (L := L)) hc
  rw [← ha] at h2
  have hev' : 0 ≤ e'.ev := by rw [hs.ev]; exact hev
  obtain ⟨st1, b1, b2, b3, b4, b5, b6, b7, b8⟩ := setWeights_ok h2.inv hs he' hev
  have g1 : st1.srcs = a.srcs := by rw [b3, h2.srcs]
  have g2 : st1.kmin = a.kmin := by rw [b5, h2.kmin]
  have g3 : st1.kmax = a.kmax := by rw [b6, h2.kmax]
  have g4 : a.kmax ≤ e'.nebins := by rw [hs.nebins, ← h2.kmax]; exact h2.range
  refine ⟨st, st1, h1, b1, ?_, ?_⟩
  · obtain ⟨st2, c1, -⟩ := from_inv a b2 he' hev' g1 g2 g3 g4
    exact ⟨st2, c1⟩
  · intro op later hop hl
    obtain ⟨st2, c1, c2⟩ := restart he' hev' b2 g1 g2 g3 g4 b8 hop later hl
    obtain ⟨st3, c3, -⟩ := value_rel c2 he' hev'
    exact ⟨st2, st3, c1, c3⟩

/-- C134 fails: if the derivatives are asked for before the likelihood is evaluated again, and the new counts
fill more pixels than the old ones, memory past the end of the computed model is read: neither call tells the
object that its model is out of date. -/
theorem C134_derivs_violates (e e' : Env) (he : e.Ok) (he' : e'.Ok) (hev : 0 ≤ e.ev) (hs : Alike e e')
    (L : ν → Bool × (Nat → List ℝ)) (ops : List (Op ν))
    (hc : CoveredRun e L (Ideal.new e) (ops ++ [.value])) (a : Ideal ν) (ha : a = (Ideal.new e).run (ops ++ [.value]))
    (hk1 : a.kmin = 0) (hk2 : a.kmax = e.nebins) (hmore : e.filled.length < e'.filled.length) :
    ∃ st, run e (St.new e) (ops ++ [.value]) = .ok st ∧
      (e'.weights = e.weights → ∃ st1, setCounts e' st = .ok st1 ∧ getFreeDerivs e' st1 = .ub) ∧
      ∃ st1, setWeights e' st = .ok st1 ∧ getFreeDerivs e' st1 = .ub := by
  obtain ⟨st, h1, h2⟩ := run_rel he hev _ _ _ (rel_new (e := e) (L := L)) hc
  rw [← ha] at h2
  have hcur : st.current = true := by
    rw [run_append] at h1
    obtain ⟨st0, g1, g2⟩ := Res.bind_eq_ok.1 h1
    have hc0 : CoveredRun e L (Ideal.new e) ops := by
      clear ha g1 h1 h2
      generalize Ideal.new e = a0 at hc
      induction ops generalizing a0 with
      | nil => trivial
      | cons x xs ih => exact ⟨hc.1, ih _ hc.2⟩
    obtain ⟨st0', k1, k2⟩ := run_rel he hev ops _ _ (rel_new (e := e) (L := L)) hc0
    rw [k1] at g1; cases g1
    obtain ⟨st1, v1, v2, v3, v4, v5, v6, v7⟩ := value_ok k2.inv he hev k2.range
    simp only [run, step] at g2
    rw [v1, Res.bind_ok] at g2
    cases g2
    exact v6
  have hlen : st.model.length = e.filled.length := h2.modelLen hcur
  have key : ∀ st1 : St ν, st1.current = st.current → st1.model = st.model → st1.kmin = st.kmin → st1.kmax = st.kmax →
      getFreeDerivs e' st1 = .ub := by
    intro st1 c1 c2 c3 c4
    unfold getFreeDerivs freshModel
    rw [if_pos (by rw [c1]; exact hcur), Res.bind_ok]
    simp only
    rw [dataOverModel_ub he' (by rw [c3, h2.kmin, hk1]) (by rw [c4, h2.kmax, hk2, hs.nebins])
      (by rw [c2, hlen]; exact hmore)]
    rfl
  refine ⟨st, h1, ?_, ?_⟩
  · intro hw
    obtain ⟨st1, b1, b2, b3, b4, b5, b6, b7, b8⟩ := setCounts_ok h2.inv hs hw he' hev
    refine ⟨st1, b1, key st1 b7 ?_ b5 b6⟩
    unfold setCounts at b1
    exact buildFixed_model b1
  · obtain ⟨st1, b1, b2, b3, b4, b5, b6, b7, b8⟩ := setWeights_ok h2.inv hs he' hev
    refine ⟨st1, b1, key st1 b7 ?_ b5 b6⟩
    unfold setWeights at b1
    exact (buildFixed_model b1).trans rfl

/-- C134: making the map of a source again (`loadSourceMap` with `recreate`) has no effect on the values, whatever the
history before and after. -/
theorem C134_recreate (e : Env) (he : e.Ok) (hev : 0 ≤ e.ev) (L : ν → Bool × (Nat → List ℝ)) (ops later : List (Op ν))
    (hc : CoveredRun e L (Ideal.new e) (ops ++ later)) (n : ν) (hn : n ∈ keys ((Ideal.new e).run ops).srcs)
    (a : Ideal ν) (ha : a = (Ideal.new e).run (ops ++ later)) :
    ∃ st st1 st2 st3, run e (St.new e) ops = .ok st ∧ recreate e st n = .ok st1 ∧ run e st1 later = .ok st2 ∧
      value e st2 = .ok (st3, logLike e a.srcs a.kmin a.kmax) := by
  have hsplit : CoveredRun e L (Ideal.new e) ops ∧ CoveredRun e L ((Ideal.new e).run ops) later := by
    clear ha hn
    generalize Ideal.new e = a0 at hc ⊢
    induction ops generalizing a0 with
    | nil => exact ⟨trivial, hc⟩
    | cons x xs ih => exact ⟨⟨hc.1, (ih _ hc.2).1⟩, (ih _ hc.2).2⟩
  obtain ⟨st, h1, h2⟩ := run_rel he hev ops _ _ (rel_new (e := e) (L := L)) hsplit.1
  obtain ⟨σ, hσ⟩ : ∃ σ, find ((Ideal.new e).run ops).srcs n = some σ := by
    cases hf : find ((Ideal.new e).run ops).srcs n with
    | some σ => exact ⟨σ, rfl⟩
    | none => exact absurd hn (StdMap.find_none.1 hf)
  obtain ⟨st1, g1, g2⟩ := recreate_rel h2 he hev hσ
  obtain ⟨st2, g3, g4⟩ := run_rel he hev later _ _ g2 hsplit.2
  rw [← ideal_append, ← ha] at g4
  obtain ⟨st3, g5, -⟩ := value_rel g4 he hev
  exact ⟨st, st1, st2, st3, h1, g1, g3, g5⟩

theorem covered_left {a : Ideal ν} {xs ys : List (Op ν)} (h : CoveredRun e L a (xs ++ ys)) : CoveredRun e L a xs := by
  induction xs generalizing a with
  | nil => trivial
  | cons x xs ih => exact ⟨h.1, ih h.2⟩

/-- The state after a history that ends with an evaluation. -/
theorem evaluated (he : e.Ok) (hev : 0 ≤ e.ev) (ops : List (Op ν)) (hc : CoveredRun e L (Ideal.new e) (ops ++ [.value])) :
    ∃ st, run e (St.new e) (ops ++ [.value]) = .ok st ∧ Rel e L ((Ideal.new e).run (ops ++ [.value])) st ∧ Evaluated e st := by
  obtain ⟨st0, k1, k2⟩ := run_rel he hev ops _ _ (rel_new (e := e) (L := L)) (covered_left hc)
  obtain ⟨st, h1, h2⟩ := run_rel he hev _ _ _ (rel_new (e := e) (L := L)) hc
  refine ⟨st, h1, h2, ?_⟩
  rw [run_append, k1, Res.bind_ok] at h1
  obtain ⟨st1, v1, v2, v3, v4, v5, v6, v7⟩ := value_ok k2.inv he hev k2.range
  simp only [run, step] at h1
  rw [v1, Res.bind_ok] at h1
  cases h1
  exact v7

/-- C134: the map of a source with a free parameter may be replaced by an image (`setSourceMapImage`) after an
evaluation.  From then on the values are those of the model with the new map, for every covered history in which
the source is not deleted. -/
theorem C134_image_partial (e : Env) (he : e.Ok) (hev : 0 ≤ e.ev) (L : ν → Bool × (Nat → List ℝ)) (ops later : List (Op ν))
    (hc : CoveredRun e L (Ideal.new e) (ops ++ [.value])) (a : Ideal ν) (ha : a = (Ideal.new e).run (ops ++ [.value]))
    (n : ν) (σ : Src) (hn : find a.srcs n = some σ) (hfree : σ.fixed = false) (img : List ℝ)
    (hi : img.length = (σ.tmpl (e.extra σ.useEdisp)).length) (b : Ideal ν)
    (hb : b = { a with srcs := withMap n img a.srcs, stale := true })
    (hl : CoveredRun e (fun k => if k = n then ((L n).1, fun _ => img) else L k) b later)
    (hdel : ∀ op ∈ later, op ≠ .deleteSource n) :
    ∃ st st1 st2 st3, run e (St.new e) (ops ++ [.value]) = .ok st ∧ setImage e st n img = .ok st1 ∧
      run e st1 later = .ok st2 ∧
      value e st2 = .ok (st3, logLike e (b.run later).srcs (b.run later).kmin (b.run later).kmax) := by
  obtain ⟨st, h1, h2, h3⟩ := evaluated he hev ops hc
  rw [← ha] at h2
  have hn' : find st.srcs n = some σ := by rw [h2.srcs]; exact hn
  have hnf : n ∉ st.fixedNames := by
    intro hh
    obtain ⟨τ, g1, g2⟩ := (mem_fixedNow h2.inv).1 (h3.perm.subset hh)
    rw [hn'] at g1; cases g1
    rw [hfree] at g2; cases g2
  obtain ⟨m, m1, m2, m3⟩ := setImage_ok h2.inv he hev hn' hi
  have hrel := image_rel h2 hn hnf hi m2
  rw [← hb] at hrel
  have hsim : Sim n σ.tmpl (re n (fun _ => img) (st.putMap n (withImage m img))) (st.putMap n (withImage m img)) := by
    refine ⟨?_, ?_, hrel.inv.sortedM, ?_, hrel.inv.sorted⟩
    · unfold re
      simp only [reL_reL]
      have : reL n σ.tmpl (st.putMap n (withImage m img)).srcs = (st.putMap n (withImage m img)).srcs :=
        reL_self h2.inv.sorted hn'
      rw [this]
    · refine ⟨withImage m img, ?_⟩
      show find (put st.maps n (withImage m img)) n = _
      rw [StdMap.find_put h2.inv.sortedM, if_pos rfl]
    · show ∃ τ, find (reL n (fun _ => img) st.srcs) n = some τ
      rw [find_reL, hn']
      exact ⟨_, rfl⟩
  obtain ⟨s2, r1, r2⟩ := run_rel he hev later _ _ hrel hl
  obtain ⟨st2, q1, q2⟩ := (two_run (e := e) later hsim hdel).ok_left r1
  obtain ⟨s3, w1, w2⟩ := value_rel r2 he hev
  obtain ⟨⟨st3, x⟩, p1, p2, p3⟩ := (two_value (e := e) q2).ok_left w1
  simp only at p3
  exact ⟨st, _, st2, st3, h1, m1, q1, by rw [p1, ← p3]⟩

/-- C134: an image of another size is refused. -/
theorem C134_image_size (e : Env) (he : e.Ok) (hev : 0 ≤ e.ev) (L : ν → Bool × (Nat → List ℝ)) (ops : List (Op ν))
    (hc : CoveredRun e L (Ideal.new e) ops) (n : ν) (σ : Src) (hn : find ((Ideal.new e).run ops).srcs n = some σ)
    (img : List ℝ) (hi : img.length ≠ (e.nebins + 1 + 2 * e.extra σ.useEdisp) * e.npix) (hp : 0 < e.npix) :
    ∃ st, run e (St.new e) ops = .ok st ∧ setImage e st n img = .throws := by
  obtain ⟨st, h1, h2⟩ := run_rel he hev ops _ _ (rel_new (e := e) (L := L)) hc
  have hn' : find st.srcs n = some σ := by rw [h2.srcs]; exact hn
  have ht := (h2.inv.src n σ hn').1.tmpl
  refine ⟨st, h1, setImage_throws h2.inv he hev hn' (by rw [ht]; exact hi) ?_⟩
  rw [ht]
  exact Nat.mul_ne_zero (by omega) (by omega)

/-- C134 fails: if all parameters of the source are fixed, the image has no effect on the next value, which is that of
the old map: the sum over the fixed sources is not made again. -/
theorem C134_image_fixed_violates (e : Env) (he : e.Ok) (hev : 0 ≤ e.ev) (hne : 0 < e.nebins)
    (L : ν → Bool × (Nat → List ℝ)) (ops : List (Op ν))
    (hc : CoveredRun e L (Ideal.new e) (ops ++ [.value])) (a : Ideal ν) (ha : a = (Ideal.new e).run (ops ++ [.value]))
    (n : ν) (σ : Src) (hn : find a.srcs n = some σ) (hfix : σ.fixed = true) (img : List ℝ)
    (hi : img.length = (σ.tmpl (e.extra σ.useEdisp)).length) :
    ∃ st st1 st2, run e (St.new e) (ops ++ [.value]) = .ok st ∧ setImage e st n img = .ok st1 ∧
      value e st1 = .ok (st2, logLike e a.srcs a.kmin a.kmax) := by
  obtain ⟨st, h1, h2, h3⟩ := evaluated he hev ops hc
  rw [← ha] at h2
  have hn' : find st.srcs n = some σ := by rw [h2.srcs]; exact hn
  have hnf : n ∈ st.fixedNames := h3.perm.symm.subset ((mem_fixedNow h2.inv).2 ⟨σ, hn', hfix⟩)
  obtain ⟨m0, hm0⟩ := (h2.inv.fixedIn n hnf).2
  obtain ⟨m, m1, m2, m3⟩ := setImage_ok h2.inv he hev hn' hi
  have hmm := m3 m0 hm0
  subst hmm
  have hsrc := h2.inv.src n σ hn'
  have hsim : Sim2 e n (L n).1 (L n).2 (fun _ => img) st (st.putMap n (withImage m img)) := by
    refine ⟨⟨rfl, rfl, rfl, rfl, rfl, rfl, rfl, rfl, rfl⟩, h2.inv.sortedM, StdMap.sorted_put h2.inv.sortedM _ _, ?_, ?_⟩
    · intro k hk
      show find (put st.maps n (withImage m img)) k = _
      rw [StdMap.find_put h2.inv.sortedM, if_neg hk]
    · refine ⟨m, withImage m img, hm0, ?_, m2, fit_image m2 img, rfl⟩
      show find (put st.maps n (withImage m img)) n = _
      rw [StdMap.find_put h2.inv.sortedM, if_pos rfl]
  obtain ⟨st2, v⟩ := value_image h2.inv he hev hne h3 h2.range hsim hnf (by
    intro τ hτ
    rw [hn'] at hτ; cases hτ
    refine ⟨(h2.inv.useEdisp hn').symm, ?_, ?_, ?_⟩
    · rw [h2.inv.useEdisp hn', h2.inv.tmpl hn']; exact hsrc.1.tmpl
    · rw [h2.inv.useEdisp hn']
      show img.length = _
      rw [hi]; exact hsrc.1.tmpl
    · rw [h2.inv.useEdisp hn']; exact hsrc.1.spec _)
  rw [h2.srcs, h2.kmin, h2.kmax] at v
  exact ⟨st, _, st2, h1, m1, v⟩

/-! ### The hypotheses hold -/

/-- The same object with a count in the other pixel as well. -/
noncomputable def toy2 : Env := { toy with data := [1/2, 1], filled := [0, 1], first := [0, 2] }

theorem toy2_ok : toy2.Ok where
  data := rfl
  filled := by
    rw [Counts.identifyFilled_eq _ _ _ rfl]
    simp [toy2, toy, Counts.filledUpTo, Counts.plane, Counts.positivePixels, List.range_succ]
  weights := toy_ok.weights
  nmeas := rfl
  bins := rfl
  cols := rfl
  col := toy_ok.col

theorem toy_alike : Alike toy toy2 := ⟨rfl, rfl, rfl, rfl, rfl⟩

theorem toyOps_value : CoveredRun toy toyL (Ideal.new toy) (toyOps ++ [.value]) :=
  ⟨⟨toySrc_ok _ _ _ _, rfl⟩, ⟨toySrc_ok _ _ _ _, rfl⟩, trivial, trivial, trivial, trivial⟩

theorem toyOps_value_srcs : ((Ideal.new toy).run (toyOps ++ [.value])).srcs =
    [(0, toySrc 10 1 2 false), (1, toySrc 11 1 5 true)] := by
  rw [ideal_append]
  exact toyOps_srcs

/-- Counts are replaced in an object with a fixed and a free source, after an evaluation; the history goes on. -/
example : ∃ st st1, run toy (St.new toy) toyOps = .ok st ∧ setCounts toy2 st = .ok st1 ∧
    (∃ st2, value toy2 st1 = .ok (st2, logLike toy2 ((Ideal.new toy).run toyOps).srcs ((Ideal.new toy).run toyOps).kmin
      ((Ideal.new toy).run toyOps).kmax)) :=
  let ⟨st, st1, h1, h2, h3, _⟩ := C134_counts_partial toy toy2 toy_ok toy2_ok (by decide) toy_alike rfl toyL toyOps
    toyOps_covered _ rfl
  ⟨st, st1, h1, h2, h3⟩

/-- … and derivatives first: undefined. -/
example : ∃ st, run toy (St.new toy) (toyOps ++ [.value]) = .ok st ∧
    (toy2.weights = toy.weights → ∃ st1, setCounts toy2 st = .ok st1 ∧ getFreeDerivs toy2 st1 = .ub) ∧
    ∃ st1, setWeights toy2 st = .ok st1 ∧ getFreeDerivs toy2 st1 = .ub :=
  C134_derivs_violates toy toy2 toy_ok toy2_ok (by decide) toy_alike toyL toyOps toyOps_value _ rfl rfl rfl
    (by simp [toy, toy2])

/-- Both kinds of calls can follow. -/
example : CoveredRun toy2 toyL ((Ideal.new toy).run toyOps) [.setKlims 0 1, .getFreeDerivs, .setPars 0 [] false, .value] :=
  ⟨le_refl 1, trivial, trivial, trivial, trivial⟩

/-- The maps of both sources of the example may be made again. -/
example : (0 : Nat) ∈ keys ((Ideal.new toy).run toyOps).srcs ∧ 1 ∈ keys ((Ideal.new toy).run toyOps).srcs := by
  rw [toyOps_srcs]
  simp [keys]

/-- C134 fails on the example: the map of the fixed source, 1 everywhere, is replaced by 3; the value does not change
although the log likelihood does. -/
theorem C134_image_differs_violates :
    ∃ st st1 st2 v, run toy (St.new toy) (toyOps ++ [.value]) = .ok st ∧ setImage toy st 0 (List.replicate 8 3) = .ok st1 ∧
      value toy st1 = .ok (st2, v) ∧
      v ≠ logLike toy (withMap 0 (List.replicate 8 3) ((Ideal.new toy).run (toyOps ++ [.value])).srcs) 0 1 := by
  obtain ⟨st, st1, st2, h1, h2, h3⟩ := C134_image_fixed_violates toy toy_ok (by decide) (by decide) toyL toyOps toyOps_value _
    rfl 0 (toySrc 10 1 2 false) (by rw [toyOps_value_srcs]; rfl) rfl (List.replicate 8 3) rfl
  refine ⟨st, st1, st2, _, h1, h2, h3, ?_⟩
  have hk1 : ((Ideal.new toy : Binned.Ideal Nat).run (toyOps ++ [.value])).kmin = 0 := rfl
  have hk2 : ((Ideal.new toy : Binned.Ideal Nat).run (toyOps ++ [.value])).kmax = 1 := rfl
  rw [hk1, hk2, toyOps_value_srcs]
  have hw : withMap 0 (List.replicate 8 3) [(0, toySrc 10 1 2 false), (1, toySrc 11 1 5 true)] =
      [(0, toySrc 10 3 2 false), (1, toySrc 11 1 5 true)] := rfl
  rw [hw]
  have htot : ∀ c p, p < 2 → total toy [(0, toySrc 10 c 2 false), (1, toySrc 11 1 5 true)] 0 p = c * 2 + 5 := by
    intro c p hp
    have h1 : counts toy (toySrc 10 c 2 false) (toySrc 10 c 2 false).vals 0 p = c * 2 := toy_counts 10 c 2 false 2 p hp
    have h2 : counts toy (toySrc 11 1 5 true) (toySrc 11 1 5 true).vals 0 p = 1 * 5 := toy_counts 11 1 5 true 5 p hp
    unfold total
    simp only [List.map_cons, List.map_nil, List.sum_cons, List.sum_nil, h1, h2]
    norm_num
  have hll : ∀ c : ℝ, 0 < c → logLike toy [(0, toySrc 10 c 2 false), (1, toySrc 11 1 5 true)] 0 1 =
      1 / 2 * Real.log (c * 2 + 5) - 3 / 2 * (c * 2 + 5) := by
    intro c hc
    unfold logLike
    have hn : toy.npix = 2 := rfl
    have d0 : val toy.data (0 * 2 + 0) = 1 / 2 := rfl
    have d1 : val toy.data (0 * 2 + 1) = 0 := rfl
    rw [show Finset.Ico 0 1 = {0} from rfl, Finset.sum_singleton, hn, Finset.sum_range_succ, Finset.sum_range_one, htot c 0 (by omega),
      htot c 1 (by omega), d0, d1, toy_wt0, toy_wt1, if_pos ⟨by norm_num, by linarith⟩, if_neg (by simp)]
    simp [toySrc]
    ring
  rw [hll 1 one_pos, hll 3 (by norm_num)]
  intro h
  have hlog : Real.log (3 * 2 + 5) ≤ (3 * 2 + 5) - 1 := Real.log_le_sub_one_of_pos (by norm_num)
  have hlog1 : 0 ≤ Real.log (1 * 2 + 5) := Real.log_nonneg (by norm_num)
  norm_num at h hlog hlog1
  linarith

/-- The free source of the example gets an image; the parameters of the fixed one are changed later. -/
example : ∃ st st1 st2 st3, run toy (St.new toy) (toyOps ++ [.value]) = .ok st ∧
    setImage toy st 1 (List.replicate 8 3) = .ok st1 ∧
    run toy st1 [.setPars 0 [⟨4, false, fun _ => 0, fun _ => 0⟩] true, .value] = .ok st2 ∧ ∃ v, value toy st2 = .ok (st3, v) := by
  obtain ⟨st, st1, st2, st3, h1, h2, h3, h4⟩ := C134_image_partial toy toy_ok (by decide) toyL toyOps
    [.setPars 0 [⟨4, false, fun _ => 0, fun _ => 0⟩] true, .value] toyOps_value _
    rfl 1 (toySrc 11 1 5 true) (by rw [toyOps_value_srcs]; rfl) rfl (List.replicate 8 3) rfl _ rfl ⟨trivial, trivial, trivial⟩
    (by intro op hop; simp at hop; rcases hop with rfl | rfl <;> simp)
  exact ⟨st, st1, st2, st3, h1, h2, h3, _, h4⟩

/-- An image that is too short. -/
example : ∃ st, run toy (St.new toy) toyOps = .ok st ∧ setImage toy st 1 [1, 2] = .throws :=
  C134_image_size toy toy_ok (by decide) toyL toyOps toyOps_covered 1 (toySrc 11 1 5 true) (by rw [toyOps_srcs]; rfl) [1, 2]
    (by decide) (by decide)

end Verif.Redata
