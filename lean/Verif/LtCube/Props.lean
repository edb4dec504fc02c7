import Verif.LtCube.Lemmas
/-
Property C136: livetime cubes made by gtltcube.
-/
set_option linter.unusedSectionVars false
set_option linter.unusedVariables false
set_option linter.unusedSimpArgs false
namespace Verif.LtCube
open Verif.Livetime Verif.LtCube.Spec

variable {δ : Type}

theorem createCube_eq (w : World δ) (c : Call) (cuts : Cuts) (g : GtiCut) (gs : List GtiCut)
    (hc : cuts.gtis = g :: gs) (hne : g.ivals ≠ []) :
    createCube w c cuts = loadFiles w g.ivals (Livetime.tmin g.ivals, Livetime.tmax g.ivals) c.sc := by
  have h : getGtis cuts = g.ivals := by unfold getGtis; rw [hc]
  obtain ⟨i, is, hi⟩ := List.exists_cons_of_ne_nil hne
  unfold createCube
  rw [h, hi, bounds_eq, Res.bind_ok, if_neg (by simp)]

/-- When a cube may be written and its computation succeeds, the run writes it. -/
theorem run_done (c : Call) (w : World δ) (cuts : Cuts) (fills : List (Fill δ)) (hc : readCuts c = .ok cuts)
    (ho : w.cubes c.out = none ∨ c.clobber = true) (h : createCube w c cuts = .ok fills) :
    (run c w).1 = .done ∧ (run c w).2.cubes c.out = some (mkCube c cuts fills) := by
  unfold run
  rw [hc]
  simp only
  cases hf : w.cubes c.out with
  | none =>
    simp only [Option.isSome_none, Bool.false_eq_true, if_false]
    unfold finish
    rw [h]
    exact ⟨rfl, put_same ..⟩
  | some x =>
    have : c.clobber = true := ho.resolve_left (by rw [hf]; exact fun e => by cases e)
    simp only [Option.isSome_some, if_true, this]
    unfold finish
    rw [createCube_put, h]
    exact ⟨rfl, put_same ..⟩

/-- With event files, if there is one set of good time intervals, all the spacecraft files
exist and are in order of time and no row is longer than a minute, the cube that is written has
exactly the good livetime of *all* the rows of all the files, however a direction counts: the
filter applied in reading and the division into files lose nothing and add nothing.  The header
has the times of the intervals; the limits of the zenith angle are in it if the upper one is
below 180 degrees.
Missing: longer rows, several sets of intervals, runs without event files, and the zenith
limits otherwise (see the theorems below). -/
theorem C136_complete_partial (c : Call) (w : World δ) (g : GtiCut) (hev : c.events = some [g])
    (hg : Livetime.Spec.Ordered g.ivals) (hne : g.ivals ≠ [])
    (hf : ∀ k ∈ c.sc, ∃ rows, w.sc k = some rows ∧ InOrder rows ∧ ∀ r ∈ rows, r.stop - r.start ≤ 60)
    (ho : w.cubes c.out = none ∨ c.clobber = true) :
    (run c w).1 = .done ∧ ∃ cube : Cube δ, (run c w).2.cubes c.out = some cube ∧
      (∀ f, inCube cube f = livetime g.ivals (allRows w c.sc) f) ∧
      (∀ f, inWeighted cube f = Spec.weighted g.ivals (allRows w c.sc) f) ∧
      cube.tstart = g.lo ∧ cube.tstop = g.hi ∧ cube.zenUsed = (c.zmin, c.zmax) ∧
      (c.zmax < 180 → cube.zenKeys = some cube.zenUsed) := by
  have hc : readCuts c = .ok ⟨[g], g.lo, g.hi⟩ := by unfold readCuts; rw [hev]; rfl
  obtain ⟨fills, h1, h2, h3⟩ := loadFiles_eq w hg hne c.sc hf
  obtain ⟨d1, d2⟩ := run_done c w _ fills hc ho ((createCube_eq w c _ g [] rfl hne).trans h1)
  exact ⟨d1, _, d2, h2, h3, rfl, rfl, rfl, fun h => if_pos h⟩

/-- The example: two files of two rows each; the first row of the first file is long before the
intervals. -/
def exWorld : World Bool where
  sc := fun k => if k = 1 then some [⟨0, 30, 25, true⟩, ⟨100, 130, 28, true⟩]
    else if k = 2 then some [⟨130, 160, 27, false⟩, ⟨160, 190, 29, true⟩] else none
  cubes := fun _ => none

def exCall : Call := ⟨some [⟨[(110, 140), (150, 170)], 110, 170⟩], 0, 0, [1, 2], 7, false, 0, 100⟩

example : ∃ g : GtiCut, exCall.events = some [g] ∧ Livetime.Spec.Ordered g.ivals ∧ g.ivals ≠ [] ∧
    (∀ k ∈ exCall.sc, ∃ rows, exWorld.sc k = some rows ∧ InOrder rows ∧ ∀ r ∈ rows, r.stop - r.start ≤ 60) ∧
    exWorld.cubes exCall.out = none := by
  refine ⟨_, rfl, ⟨?_, ?_⟩, by simp, ?_, rfl⟩
  · intro g hg; simp at hg; rcases hg with rfl | rfl <;> norm_num
  · simp; norm_num
  · intro k hk
    simp [exCall] at hk
    rcases hk with rfl | rfl
    · refine ⟨_, rfl, ⟨?_, ?_⟩, ?_⟩
      · intro r hr; simp at hr; rcases hr with rfl | rfl <;> norm_num
      · simp; norm_num
      · intro r hr; simp at hr; rcases hr with rfl | rfl <;> norm_num
    · refine ⟨_, rfl, ⟨?_, ?_⟩, ?_⟩
      · intro r hr; simp at hr; rcases hr with rfl | rfl <;> norm_num
      · simp
      · intro r hr; simp at hr; rcases hr with rfl | rfl <;> norm_num

/-- How the spacecraft data are divided into files makes no difference: two lists of files with
the same rows in all, in any order, give cubes with the same livetime. -/
theorem C136_division (c c' : Call) (w w' : World δ) (g : GtiCut) (hev : c.events = some [g]) (hev' : c'.events = some [g])
    (hg : Livetime.Spec.Ordered g.ivals) (hne : g.ivals ≠ [])
    (hf : ∀ k ∈ c.sc, ∃ rows, w.sc k = some rows ∧ InOrder rows ∧ ∀ r ∈ rows, r.stop - r.start ≤ 60)
    (hf' : ∀ k ∈ c'.sc, ∃ rows, w'.sc k = some rows ∧ InOrder rows ∧ ∀ r ∈ rows, r.stop - r.start ≤ 60)
    (ho : w.cubes c.out = none ∨ c.clobber = true) (ho' : w'.cubes c'.out = none ∨ c'.clobber = true)
    (hp : (allRows w c.sc).Perm (allRows w' c'.sc)) :
    ∃ cube cube' : Cube δ, (run c w).2.cubes c.out = some cube ∧ (run c' w').2.cubes c'.out = some cube' ∧
      ∀ f, inCube cube f = inCube cube' f ∧ inWeighted cube f = inWeighted cube' f := by
  obtain ⟨-, a, a1, a2, a3, -⟩ := C136_complete_partial c w g hev hg hne hf ho
  obtain ⟨-, b, b1, b2, b3, -⟩ := C136_complete_partial c' w' g hev' hg hne hf' ho'
  refine ⟨a, b, a1, b1, fun f => ⟨?_, ?_⟩⟩
  · rw [a2, b2]; exact (hp.map _).sum_eq
  · rw [a3, b3]; exact (hp.map _).sum_eq

/-- The same two files in the other order. -/
example : (allRows exWorld [1, 2]).Perm (allRows exWorld [2, 1]) := by
  unfold allRows
  simpa using List.perm_append_comm

/-- The fraction of good time for one interval that ends after the row. -/
theorem fraction_one {a b start stop : ℝ} (h1 : start ≤ a) (h2 : a ≤ stop) (h3 : stop ≤ b) :
    Livetime.Spec.fraction start stop [] [(a, b)] = (stop - a) / (stop - start) := by
  have : Livetime.Spec.good start stop [] [(a, b)] = Set.Icc a stop := by
    ext t
    constructor
    · rintro ⟨-, h, -, g, hg, h4, -⟩
      rcases List.mem_singleton.1 hg with rfl
      exact ⟨h4, h⟩
    · rintro ⟨h4, h5⟩
      exact ⟨h1.trans h4, h5, (fun c hc => by cases hc), _, List.mem_singleton.2 rfl, h4, h5.trans h3⟩
  unfold Livetime.Spec.fraction
  rw [this, Real.volume_Icc, ENNReal.toReal_ofReal (by linarith)]

/-- A row that began more than a minute before the good time is dropped by the filter, with all
its livetime: for every interval, and every row that begins more than a minute before and ends
in it, the cube is empty, although part of the row is good. -/
theorem C136_long_row_violates (c : Call) (w : World δ) (a b : ℝ) (r : Row δ) (k : Nat)
    (hev : c.events = some [⟨[(a, b)], a, b⟩]) (hsc : c.sc = [k]) (hw : w.sc k = some [r])
    (ho : w.cubes c.out = none ∨ c.clobber = true)
    (h1 : r.start < a - 60) (h2 : a < r.stop) (h3 : r.stop ≤ b) (hl : 0 < r.livetime) :
    ∃ cube : Cube δ, (run c w).1 = .done ∧ (run c w).2.cubes c.out = some cube ∧ (∀ f, inCube cube f = 0) ∧
      0 < livetime [(a, b)] (allRows w c.sc) (fun _ => 1) := by
  have hc : readCuts c = .ok ⟨[⟨[(a, b)], a, b⟩], a, b⟩ := by unfold readCuts; rw [hev]; rfl
  have hp : passes (Livetime.tmin [(a, b)], Livetime.tmax [(a, b)]) r = false := by
    unfold passes
    refine decide_eq_false fun h => ?_
    have : a - 60 ≤ r.start := h.1
    linarith
  have hld : load [] [(a, b)] ([] : List (Row δ)) = .ok [] := by
    unfold load; simp
  have hcc : createCube w c ⟨[⟨[(a, b)], a, b⟩], a, b⟩ = .ok [] := by
    rw [createCube_eq w c _ ⟨[(a, b)], a, b⟩ [] rfl (by simp), hsc, loadFiles, hw]
    simp only
    rw [List.filter_cons_of_neg (by rw [hp]; exact Bool.false_ne_true), List.filter_nil, hld, Res.bind_ok, loadFiles,
      Res.bind_ok]
    rfl
  obtain ⟨d1, d2⟩ := run_done c w _ [] hc ho hcc
  refine ⟨_, d1, d2, fun f => rfl, ?_⟩
  have : allRows w c.sc = [r] := by
    unfold allRows; rw [hsc, List.flatMap_cons, hw]; rfl
  unfold livetime
  rw [this, List.map_cons, List.map_nil, List.sum_cons, List.sum_nil, add_zero, one_mul,
    fraction_one (by linarith) h2.le h3]
  exact mul_pos hl (div_pos (by linarith) (by linarith))

/-- A row of 150 s, of which 50 s are good. -/
example : ∃ (c : Call) (w : World Bool) (r : Row Bool), c.events = some [⟨[(100, 200)], 100, 200⟩] ∧ c.sc = [1] ∧
    w.sc 1 = some [r] ∧ w.cubes c.out = none ∧ r.start < 100 - 60 ∧ 100 < r.stop ∧ r.stop ≤ 200 ∧ 0 < r.livetime :=
  ⟨⟨some [⟨[(100, 200)], 100, 200⟩], 0, 0, [1], 7, false, 0, 180⟩, ⟨fun _ => some [⟨0, 150, 140, true⟩], fun _ => none⟩,
    ⟨0, 150, 140, true⟩, rfl, rfl, rfl, rfl, by norm_num, by norm_num, by norm_num, by norm_num⟩

/-- Without an event file the program should make the cube for the times `tmin` to `tmax` given
as parameters.  It never makes any: the times do not become good time intervals, and the bounds
of the filter are read without having been set. -/
theorem C136_without_events_violates (c : Call) (w : World δ) (hev : c.events = none) :
    (run c w).1 ≠ .done ∧ (w.cubes c.out = none → (run c w).1 = .undefined) := by
  have hc : readCuts c = .ok ⟨[], c.tmin, c.tmax⟩ := by unfold readCuts; rw [hev]
  have h : ∀ w : World δ, createCube w c ⟨[], c.tmin, c.tmax⟩ = .ub := fun w => rfl
  unfold run
  rw [hc]
  simp only
  refine ⟨?_, fun ho => ?_⟩
  · split
    · split
      · unfold finish; rw [h]; simp
      · simp
    · unfold finish; rw [h]; simp
  · rw [ho]
    simp only [Option.isSome_none, Bool.false_eq_true, if_false]
    unfold finish
    rw [h]

/-- Of several sets of good time intervals only the first is used, for the livetime and for the
end of the observation in the header: here the second set begins when the first is over, an
event of either is accepted, and a row of 30 s in the second gives no livetime; the header
says that the observation ended with the first. -/
theorem C136_several_sets_violates : ∃ (c : Call) (w : World Bool) (g1 g2 : GtiCut) (cube : Cube Bool),
    c.events = some [g1, g2] ∧ (run c w).1 = .done ∧ (run c w).2.cubes c.out = some cube ∧
      (∀ f, inCube cube f = 0) ∧ livetime g2.ivals (allRows w c.sc) (fun _ => 1) = 30 ∧
      g1.hi < g2.lo ∧ g2.lo < g2.hi ∧ cube.tstop = g1.hi := by
  let g1 : GtiCut := ⟨[(0, 100)], 0, 100⟩
  let g2 : GtiCut := ⟨[(200, 300)], 200, 300⟩
  let c : Call := ⟨some [g1, g2], 0, 0, [1], 7, false, 0, 180⟩
  let w : World Bool := ⟨fun _ => some [⟨200, 230, 30, true⟩], fun _ => none⟩
  have hc : readCuts c = .ok ⟨[g1, g2], 0, 100⟩ := by
    unfold readCuts
    simp only [c, extremes, g1, g2]
    norm_num
  have hp : passes (Livetime.tmin [(0, 100)], Livetime.tmax [(0, 100)]) (⟨200, 230, 30, true⟩ : Row Bool) = false := by
    unfold passes
    refine decide_eq_false fun h => ?_
    have : (230 : ℝ) ≤ 100 + 60 := h.2
    norm_num at this
  have hld : load [] [((0 : ℝ), (100 : ℝ))] ([] : List (Row Bool)) = .ok [] := by
    unfold load; simp
  have hcc : createCube w c ⟨[g1, g2], 0, 100⟩ = .ok [] := by
    rw [createCube_eq w c _ g1 [g2] rfl (by simp [g1])]
    show loadFiles w [(0, 100)] (Livetime.tmin [(0, 100)], Livetime.tmax [(0, 100)]) [1] = _
    rw [loadFiles]
    simp only [w]
    rw [List.filter_cons_of_neg (by rw [hp]; exact Bool.false_ne_true), List.filter_nil, hld, Res.bind_ok, loadFiles,
      Res.bind_ok]
    rfl
  obtain ⟨d1, d2⟩ := run_done c w _ [] hc (Or.inl rfl) hcc
  refine ⟨c, w, g1, g2, _, rfl, d1, d2, fun f => rfl, ?_, by norm_num [g1, g2], by norm_num [g2], rfl⟩
  show (1 : ℝ) * (30 * Livetime.Spec.fraction 200 230 [] [(200, 300)]) + 0 = 30
  rw [fraction_one le_rfl (by norm_num) (by norm_num)]
  norm_num

/-- Rows that are in two of the files count twice: with a file named twice the cube has twice
the livetime, though time went by but once. -/
theorem C136_repeated_violates (c : Call) (w : World δ) (g : GtiCut) (k : Nat) (rows : List (Row δ))
    (hev : c.events = some [g]) (hg : Livetime.Spec.Ordered g.ivals) (hne : g.ivals ≠ []) (hsc : c.sc = [k, k])
    (hw : w.sc k = some rows) (hr : InOrder rows) (hl : ∀ r ∈ rows, r.stop - r.start ≤ 60)
    (ho : w.cubes c.out = none ∨ c.clobber = true) :
    ∃ cube : Cube δ, (run c w).2.cubes c.out = some cube ∧ ∀ f, inCube cube f = 2 * livetime g.ivals rows f := by
  obtain ⟨-, cube, h1, h2, -⟩ := C136_complete_partial c w g hev hg hne (fun x hx => by
    rw [hsc] at hx
    have : x = k := by simpa using hx
    exact ⟨rows, this ▸ hw, hr, hl⟩) ho
  refine ⟨cube, h1, fun f => ?_⟩
  have : allRows w c.sc = rows ++ rows := by
    unfold allRows; rw [hsc]; simp [hw]
  rw [h2, this]
  unfold livetime
  rw [List.map_append, List.sum_append, two_mul]

/-- With the upper limit of the zenith angle at its default of 180 degrees the lower limit is
not recorded: cubes made with any two lower limits have the same header. -/
theorem C136_zenith_violates (c : Call) (w : World δ) (g : GtiCut) (z : ℝ) (hev : c.events = some [g])
    (hg : Livetime.Spec.Ordered g.ivals) (hne : g.ivals ≠ []) (hz : c.zmax = 180)
    (hf : ∀ k ∈ c.sc, ∃ rows, w.sc k = some rows ∧ InOrder rows ∧ ∀ r ∈ rows, r.stop - r.start ≤ 60)
    (ho : w.cubes c.out = none ∨ c.clobber = true) :
    ∃ cube cube' : Cube δ, (run c w).2.cubes c.out = some cube ∧ (run { c with zmin := z } w).2.cubes c.out = some cube' ∧
      cube.zenUsed.1 = c.zmin ∧ cube'.zenUsed.1 = z ∧ cube.zenKeys = none ∧ cube'.zenKeys = none ∧
      cube.tstart = cube'.tstart ∧ cube.tstop = cube'.tstop := by
  have hc : ∀ z, readCuts { c with zmin := z } = .ok ⟨[g], g.lo, g.hi⟩ := by intro z; unfold readCuts; simp only [hev]; rfl
  obtain ⟨fills, h1, -, -⟩ := loadFiles_eq w hg hne c.sc hf
  have hk : ∀ z, zenKeys { c with zmin := z } = none := fun z => if_neg (by simp only [hz]; exact lt_irrefl _)
  obtain ⟨-, d2⟩ := run_done c w _ fills (hc c.zmin) ho ((createCube_eq w c _ g [] rfl hne).trans h1)
  obtain ⟨-, e2⟩ := run_done { c with zmin := z } w _ fills (hc z) ho ((createCube_eq w _ _ g [] rfl hne).trans h1)
  exact ⟨_, _, d2, e2, rfl, rfl, hk c.zmin, hk z, rfl, rfl⟩

/-- Whatever happens, the spacecraft files and the other cubes remain as they are; and without
`clobber` so does a cube that has the name of the output, and the run refuses to begin (unless
it fails in reading the cuts). -/
theorem C136_kept (c : Call) (w : World δ) :
    (run c w).2.sc = w.sc ∧ (∀ k, k ≠ c.out → (run c w).2.cubes k = w.cubes k) ∧
      (c.clobber = false → ∀ x, w.cubes c.out = some x → (run c w).2.cubes c.out = some x ∧
        ((run c w).1 = .refused ∨ (run c w).1 = .failed)) := by
  unfold run
  cases hc : readCuts c with
  | ok cuts =>
    simp only
    cases hx : w.cubes c.out with
    | none =>
      simp only [Option.isSome_none, Bool.false_eq_true, if_false]
      exact ⟨(finish_frame c cuts w).1, (finish_frame c cuts w).2, fun _ x h => by cases h⟩
    | some x =>
      simp only [Option.isSome_some, if_true]
      cases hb : c.clobber with
      | true =>
        simp only [if_true]
        refine ⟨(finish_frame c cuts _).1, fun k hk => ?_, fun h => by cases h⟩
        rw [(finish_frame c cuts _).2 k hk, put_other w hk]
      | false =>
        simp only [Bool.false_eq_true, if_false]
        exact ⟨trivial, fun _ _ => trivial, fun _ y h => ⟨by rw [hx]; exact h, Or.inl trivial⟩⟩
  | throws => exact ⟨rfl, fun _ _ => rfl, fun _ x h => ⟨h, Or.inr rfl⟩⟩
  | ub =>
    exfalso
    unfold readCuts at hc
    split at hc <;> cases hc

/-- With `clobber` an old cube is removed before the new one is computed: when a spacecraft
file does not exist, the run fails and the old cube is gone. -/
theorem C136_lost_violates (c : Call) (w : World δ) (g : GtiCut) (k : Nat) (ks : List Nat) (x : Cube δ)
    (hev : c.events = some [g]) (hne : g.ivals ≠ []) (hsc : c.sc = k :: ks) (hw : w.sc k = none)
    (hb : c.clobber = true) (hx : w.cubes c.out = some x) :
    (run c w).1 = .failed ∧ (run c w).2.cubes c.out = none := by
  have hc : readCuts c = .ok ⟨[g], g.lo, g.hi⟩ := by unfold readCuts; rw [hev]; rfl
  have h : createCube (w.put c.out none) c ⟨[g], g.lo, g.hi⟩ = .throws := by
    rw [createCube_eq _ c _ g [] rfl hne, hsc, loadFiles]
    show (match w.sc k with | none => _ | some rows => _) = _
    rw [hw]
  unfold run
  rw [hc]
  simp only [hx, Option.isSome_some, if_true, hb]
  unfold finish
  rw [h]
  exact ⟨rfl, put_same ..⟩

example : ∃ (c : Call) (w : World Bool) (g : GtiCut) (x : Cube Bool), c.events = some [g] ∧ g.ivals ≠ [] ∧ c.sc = [3] ∧
    w.sc 3 = none ∧ c.clobber = true ∧ w.cubes c.out = some x :=
  ⟨⟨some [⟨[(0, 1)], 0, 1⟩], 0, 0, [3], 7, true, 0, 180⟩, ⟨fun _ => none, fun _ => some ⟨[], (0, 180), 0, 1, none⟩⟩,
    ⟨[(0, 1)], 0, 1⟩, ⟨[], (0, 180), 0, 1, none⟩, rfl, by simp, rfl, rfl, rfl, rfl⟩

end Verif.LtCube
