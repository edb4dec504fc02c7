import Verif.ScanFile.Model
import Verif.ScanFile.Spec
import Verif.Energy.Lemmas
import Mathlib.Data.List.Nodup
import Mathlib.Data.Nat.Bitwise
import Mathlib.Tactic.Common
/-
Lemmas on the file of a scan.
-/
set_option linter.unusedSectionVars false
set_option linter.unusedSimpArgs false
set_option linter.unusedVariables false
namespace Verif.ScanFile

open TsScan (Grid Axis)

/-! ### Histograms -/

/-- The dimensions. -/
def dimsOf (g : Grid) (K : Nat) (p e k : Bool) : List Nat :=
  (if p then pixDims g else []) ++ (if e then [g.nE] else []) ++ (if k then [K] else [])

/-- The axes. -/
def axesOf (p e k : Bool) : List Axis :=
  (if p then [Axis.pix] else []) ++ (if e then [Axis.energy] else []) ++ (if k then [Axis.norm] else [])

/-- A histogram. -/
noncomputable def histOf (g : Grid) (vals : Name → Nat → ℝ) (K : Nat) (n : Name) (p e k : Bool) : Hist :=
  ⟨dimsOf g K p e k, axesOf p e k, (List.range (dimsOf g K p e k).prod).map (vals n)⟩

/-- One entry of the plan. -/
noncomputable def entry (g : Grid) (vals : Name → Nat → ℝ) (K : Nat) (x : Bool × Name × Bool × Bool × Bool) : Option (Name × Hist) :=
  if x.1 then some (x.2.1, histOf g vals K x.2.1 x.2.2.1 x.2.2.2.1 x.2.2.2.2) else none

theorem pixDims_ne (g : Grid) : pixDims g ≠ [] := by
  unfold pixDims
  split <;> simp

theorem buildIf_ok {vals : Name → Nat → ℝ} {K : Nat} {x : Bool × Name × Bool × Bool × Bool} {s : Scanner}
    (h1 : x.2.2.1 = true ∨ x.2.2.2.1 = true) (h2 : x.1 = true → x.2.2.2.2 = true → s.normBins = some K) :
    buildIf x.1 vals x.2.1 x.2.2.1 x.2.2.2.1 x.2.2.2.2 s =
      .ok { s with scanData := s.scanData ++ (entry s.grid vals K x).toList } := by
  obtain ⟨c, n, p, e, k⟩ := x
  simp only at h1 h2
  unfold buildIf entry
  cases c
  · simp
  · rw [if_pos rfl, if_pos rfl]
    unfold buildHist histOf dimsOf axesOf
    cases k
    · have hd : ((if p = true then pixDims s.grid else []) ++ (if e = true then [s.grid.nE] else [])).length ≠ 0 := by
        rw [Ne, List.length_eq_zero_iff]
        rcases h1 with h | h
        · rw [h]
          simp [pixDims_ne]
        · rw [h]
          simp
      simp only [if_neg hd]
      simp
    · rw [h2 rfl rfl]
      simp

theorem buildAll_ok {vals : Name → Nat → ℝ} {K : Nat} : ∀ (l : List (Bool × Name × Bool × Bool × Bool)) (s : Scanner),
    (∀ x ∈ l, x.2.2.1 = true ∨ x.2.2.2.1 = true) → (∀ x ∈ l, x.1 = true → x.2.2.2.2 = true → s.normBins = some K) →
    buildAll vals l s = .ok { s with scanData := s.scanData ++ l.filterMap (entry s.grid vals K) }
  | [], s, _, _ => by simp [buildAll]
  | x :: l, s, h1, h2 => by
    have hb := buildIf_ok (vals := vals) (K := K) (x := x) (s := s) (h1 x (by simp)) (h2 x (by simp))
    have ih := buildAll_ok (vals := vals) (K := K) l { s with scanData := s.scanData ++ (entry s.grid vals K x).toList }
      (fun y hy => h1 y (by simp [hy])) (fun y hy => h2 y (by simp [hy]))
    rw [buildAll, hb, Res.bind_ok, ih]
    congr 1
    cases he : entry s.grid vals K x with
    | none => simp [List.filterMap_cons, he]
    | some v => simp [List.filterMap_cons, he]

/-- The histograms of a run. -/
noncomputable def hists (g : Grid) (o : Opts) (r : Found) : List (Name × Hist) := (plan o).filterMap (entry g r.vals o.nNorm)

theorem plan_axes (o : Opts) : ∀ x ∈ plan o, x.2.2.1 = true ∨ x.2.2.2.1 = true := by
  intro x hx
  simp only [plan, List.mem_cons, List.not_mem_nil, or_false] at hx
  rcases hx with h | h | h | h | h | h | h | h | h | h | h | h | h | h | h | h | h | h | h | h | h | h <;> subst h <;> simp

theorem plan_norm (o : Opts) : ∀ x ∈ plan o, x.1 = true → x.2.2.2.2 = true → 0 < o.nNorm := by
  intro x hx
  simp only [plan, List.mem_cons, List.not_mem_nil, or_false] at hx
  rcases hx with h | h | h | h | h | h | h | h | h | h | h | h | h | h | h | h | h | h | h | h | h | h <;> subst h <;> simp

/-- A run that finds something. -/
theorem run_good {o : Opts} {r : Found} {s : Scanner} (h : r.status = 0) :
    run o r s = .ok ⟨s.grid, s.scanData ++ hists s.grid o r, outLocs, o.doMap, if 0 < o.nNorm then some o.nNorm else s.normBins,
      some (r.pars, r.covs)⟩ := by
  unfold run
  rw [if_neg (by simp [h]), buildAll_ok (K := o.nNorm) _ _ (plan_axes o) (fun x hx a b => by
    simp only
    rw [if_pos (plan_norm o x hx a b)])]
  rfl

theorem run_bad {o : Opts} {r : Found} {s : Scanner} (h : r.status ≠ 0) : run o r s = .ok s := by
  unfold run
  rw [if_pos h]

/-- The histograms of several runs. -/
noncomputable def allHists (g : Grid) (l : List (Opts × Found)) : List (Name × Hist) :=
  (l.filter (fun p => p.2.status = 0)).flatMap (fun p => hists g p.1 p.2)

/-- The state after several runs. -/
theorem runs_ok : ∀ (l : List (Opts × Found)) (s : Scanner), ∃ s', runs l s = .ok s' ∧ s'.grid = s.grid ∧
    s'.scanData = s.scanData ++ allHists s.grid l ∧
    (match Spec.lastGood l with
      | none => s' = s
      | some (o, r) => s'.locs = outLocs ∧ s'.hasMap = o.doMap ∧ s'.baseline = some (r.pars, r.covs) ∧
        (0 < o.nNorm → s'.normBins = some o.nNorm))
  | [], s => ⟨s, rfl, rfl, by simp [allHists], by simp [Spec.lastGood]⟩
  | (o, r) :: l, s => by
    by_cases h : r.status = 0
    · obtain ⟨s', h1, h2, h3, h4⟩ := runs_ok l ⟨s.grid, s.scanData ++ hists s.grid o r, outLocs, o.doMap,
        if 0 < o.nNorm then some o.nNorm else s.normBins, some (r.pars, r.covs)⟩
      refine ⟨s', by rw [runs, run_good h, Res.bind_ok, h1], h2, by rw [h3]; simp [allHists, h], ?_⟩
      have hl : Spec.lastGood ((o, r) :: l) = some ((Spec.lastGood l).getD (o, r)) := by
        unfold Spec.lastGood
        rw [List.filter_cons, if_pos (by simpa using h), List.getLast?_cons]
      rw [hl]
      cases hg : Spec.lastGood l with
      | none =>
        rw [hg] at h4
        simp only at h4
        subst h4
        simp only [Option.getD_none, true_and]
        intro hn
        rw [if_pos hn]
      | some q =>
        rw [hg] at h4
        exact h4
    · obtain ⟨s', h1, h2, h3, h4⟩ := runs_ok l s
      have hf : ((o, r) :: l).filter (fun p => decide (p.2.status = 0)) = l.filter (fun p => decide (p.2.status = 0)) := by
        rw [List.filter_cons, if_neg (by simpa using h)]
      refine ⟨s', by rw [runs, run_bad h, Res.bind_ok, h1], h2, by rw [h3]; unfold allHists; rw [hf], ?_⟩
      have hl : Spec.lastGood ((o, r) :: l) = Spec.lastGood l := by
        unfold Spec.lastGood
        rw [hf]
      rw [hl]
      exact h4

/-! ### What a run asks for -/

/-- The kind of a quantity. -/
def isMapB : Quantity → Bool
  | .tsMap | .okMap | .normMap | .symMap | .posMap | .negMap => true
  | _ => false

theorem isMapB_iff (q : Quantity) : isMapB q = true ↔ Spec.IsMap q := by cases q <;> simp [isMapB, Spec.IsMap]

/-- The place of a quantity. -/
def locOf (q : Quantity) : Nat := if q = .tsMap then 1 ||| 4 else if isMapB q then 4 else 8

/-- The axes that an entry of the plan has. -/
def scanB : Quantity → Bool
  | .normScan | .dllScan => true
  | _ => false

theorem scanB_iff (q : Quantity) : scanB q = true ↔ Spec.IsScan q := by cases q <;> simp [scanB, Spec.IsScan]

theorem plan_entry (o : Opts) : ∀ x ∈ plan o, outLocs.lookup x.2.1 = some (locOf x.2.1.q) ∧
    x.2.2.1 = (isMapB x.2.1.q || o.doMap) ∧ x.2.2.2.1 = !isMapB x.2.1.q ∧ x.2.2.2.2 = scanB x.2.1.q ∧
    (x.1 = true ↔ Spec.Asked o x.2.1) := by
  intro x hx
  simp only [plan, List.mem_cons, List.not_mem_nil, or_false] at hx
  rcases hx with h | h | h | h | h | h | h | h | h | h | h | h | h | h | h | h | h | h | h | h | h | h <;> subst h <;>
    refine ⟨by simp only; decide, by simp [isMapB], by simp [isMapB], by simp [scanB], by simp [Spec.Asked, and_comm]⟩

theorem asked_plan (o : Opts) (n : Name) (h : Spec.Asked o n) : n ∈ (plan o).map (fun x => x.2.1) := by
  obtain ⟨q, st⟩ := n
  cases st <;> cases q <;> simp_all [plan, Spec.Asked]

theorem plan_nodup (o : Opts) : ((plan o).map (fun x => x.2.1)).Nodup := by
  simp only [plan, List.map_cons, List.map_nil]
  decide

theorem mem_hists {g : Grid} {o : Opts} {r : Found} {n : Name} {h : Hist} : (n, h) ∈ hists g o r ↔
    Spec.Asked o n ∧ h = histOf g r.vals o.nNorm n (isMapB n.q || o.doMap) (!isMapB n.q) (scanB n.q) := by
  unfold hists
  rw [List.mem_filterMap]
  constructor
  · rintro ⟨x, hx, he⟩
    obtain ⟨h1, h2, h3, h4, h5⟩ := plan_entry o x hx
    unfold entry at he
    split at he
    · next hc =>
      simp only [Option.some.injEq, Prod.mk.injEq] at he
      obtain ⟨rfl, rfl⟩ := he
      exact ⟨h5.mp hc, by rw [h2, h3, h4]⟩
    · cases he
  · rintro ⟨ha, rfl⟩
    obtain ⟨x, hx, rfl⟩ := List.mem_map.mp (asked_plan o n ha)
    obtain ⟨h1, h2, h3, h4, h5⟩ := plan_entry o x hx
    refine ⟨x, hx, ?_⟩
    unfold entry
    rw [if_pos (h5.mpr ha), ← h2, ← h3, ← h4]

theorem hists_nodup (g : Grid) (o : Opts) (r : Found) : ((hists g o r).map Prod.fst).Nodup := by
  have : (hists g o r).map Prod.fst = ((plan o).filter (fun x => x.1)).map (fun x => x.2.1) := by
    unfold hists
    generalize plan o = l
    induction l with
    | nil => rfl
    | cons x l ih =>
      obtain ⟨c, n, p, e, k⟩ := x
      cases c <;> simp [List.filterMap_cons, entry, ih]
  rw [this]
  exact (plan_nodup o).sublist (List.filter_sublist.map _)

theorem hists_loc {g : Grid} {o : Opts} {r : Found} {n : Name} {h : Hist} (hm : (n, h) ∈ hists g o r) :
    outLocs.lookup n = some (locOf n.q) ∧ (n.q = .tsMap → h.dims = pixDims g) := by
  obtain ⟨ha, rfl⟩ := mem_hists.mp hm
  obtain ⟨x, hx, rfl⟩ := List.mem_map.mp (asked_plan o n ha)
  refine ⟨(plan_entry o x hx).1, fun hq => ?_⟩
  rw [hq]
  simp [histOf, dimsOf, isMapB, scanB]

/-! ### Sorting by place -/

/-- The image of a histogram over positions. -/
theorem image_ok {g : Grid} {ny : Nat} {h : Hist} (hy : g.ny = some ny) (hx : 0 < g.nx) (hn : 0 < ny) (hd : h.dims = pixDims g) :
    image g h = .ok ([g.nx, ny], h.data) := by
  have hp : h.dims = [g.nx, ny] := by
    rw [hd]
    unfold pixDims
    rw [hy]
  unfold image
  rw [hy]
  simp only
  rw [if_neg (by omega), hp]
  simp

/-- The last image for the primary part. -/
def lastPrimary (g : Grid) : List (Name × Hist) → Option (List Nat × List ℝ) → Option (List Nat × List ℝ)
  | [], a => a
  | (n, h) :: l, a =>
    lastPrimary g l (if n.q = .tsMap then (match g.ny with
      | none => a
      | some ny => some ([g.nx, ny], h.data)) else a)

theorem lastPrimary_append (g : Grid) : ∀ (l m : List (Name × Hist)) (a), lastPrimary g (l ++ m) a = lastPrimary g m (lastPrimary g l a)
  | [], m, a => rfl
  | (n, h) :: l, m, a => by
    rw [List.cons_append, lastPrimary, lastPrimary, lastPrimary_append g l m]

theorem and_pow (i m : Nat) : 2 ^ i &&& m ≠ 0 ↔ m.testBit i = true := by
  rw [Nat.and_comm, Nat.and_two_pow]
  cases m.testBit i <;> simp

theorem loc4 (q : Quantity) (m : Nat) : locOf q &&& 4 &&& m ≠ 0 ↔ isMapB q = true ∧ m.testBit 2 = true := by
  have h4 : (4 : Nat) &&& m ≠ 0 ↔ m.testBit 2 = true := and_pow 2 m
  cases q <;> simp [locOf, isMapB, ← h4]

theorem loc8 (q : Quantity) (m : Nat) : locOf q &&& 8 &&& m ≠ 0 ↔ isMapB q = false ∧ m.testBit 3 = true := by
  have h8 : (8 : Nat) &&& m ≠ 0 ↔ m.testBit 3 = true := and_pow 3 m
  cases q <;> simp [locOf, isMapB, ← h8]

theorem loc2 (q : Quantity) (m : Nat) : ¬ (locOf q &&& 2 &&& m ≠ 0) := by cases q <;> simp [locOf, isMapB]

theorem loc1 (q : Quantity) : locOf q &&& 1 ≠ 0 ↔ q = .tsMap := by cases q <;> simp [locOf, isMapB]

/-- What the loop over histograms gives. -/
theorem sortHists_ok {g : Grid} {mask : Nat} (hx : 0 < g.nx) (hy : ∀ ny, g.ny = some ny → 0 < ny) :
    ∀ (l : List (Name × Hist)) (a : Sorted),
    (∀ p ∈ l, outLocs.lookup p.1 = some (locOf p.1.q) ∧ (p.1.q = .tsMap → p.2.dims = pixDims g)) →
    sortHists g outLocs mask l a = .ok ⟨lastPrimary g l a.primary, a.images,
      a.fit ++ l.filter (fun p => isMapB p.1.q && mask.testBit 2),
      a.scan ++ l.filter (fun p => !isMapB p.1.q && mask.testBit 3)⟩
  | [], a, _ => by simp [sortHists, lastPrimary]
  | (n, h) :: l, a, hl => by
    obtain ⟨h1, h2⟩ := hl (n, h) (by simp)
    simp only at h1 h2
    have hp : toPrimary g (locOf n.q) h a.primary = .ok (if n.q = .tsMap then (match g.ny with
        | none => a.primary
        | some ny => some ([g.nx, ny], h.data)) else a.primary) := by
      unfold toPrimary
      by_cases hq : n.q = .tsMap
      · cases hg : g.ny with
        | none => rw [if_neg (by simp), if_pos hq]
        | some ny => rw [if_pos ⟨(loc1 _).mpr hq, rfl⟩, image_ok hg hx (hy ny hg) (h2 hq), Res.bind_ok, if_pos hq]
      · rw [if_neg (fun hc => hq ((loc1 _).mp hc.1)), if_neg hq]
    have hi : toImages g mask (locOf n.q) n h a.images = .ok a.images := by
      unfold toImages
      rw [if_neg (fun hc => loc2 _ _ hc.1)]
    rw [sortHists, h1]
    simp only
    rw [hp, Res.bind_ok, hi, Res.bind_ok, sortHists_ok hx hy l _ (fun p hp => hl p (by simp [hp]))]
    congr 1
    have e4 := loc4 n.q mask
    have e8 := loc8 n.q mask
    rw [lastPrimary]
    congr 1
    · by_cases hc : isMapB n.q = true ∧ mask.testBit 2 = true
      · rw [if_pos (e4.mpr hc), List.filter_cons_of_pos (by simp [hc.1, hc.2]), List.append_assoc, List.singleton_append]
      · rw [if_neg (fun h => hc (e4.mp h)), List.filter_cons_of_neg (by simpa using hc)]
    · by_cases hc : isMapB n.q = false ∧ mask.testBit 3 = true
      · rw [if_pos (e8.mpr hc), List.filter_cons_of_pos (by simp [hc.1, hc.2]), List.append_assoc, List.singleton_append]
      · rw [if_neg (fun h => hc (e8.mp h)), List.filter_cons_of_neg (by simpa using hc)]

/-! ### Tables -/

/-- The cells of a column. -/
noncomputable def cellsOf (l : List ℝ) (npix : Nat) : List (List ℝ) :=
  (List.range npix).map (fun p => (List.range (l.length / npix)).map (fun d => Vec.val l (p + d * npix)))

theorem column_ok {l : List ℝ} {npix : Nat} (h : 0 < npix) : TsScan.column l npix = .ok (cellsOf l npix) := by
  unfold TsScan.column cellsOf
  rw [if_neg (by omega)]
  refine mapM_ok _ _ _ (fun p hp => mapM_ok _ _ _ (fun d hd => Vec.vget_val ?_))
  rw [List.mem_range] at hp hd
  have h1 : (d + 1) * npix ≤ l.length / npix * npix := Nat.mul_le_mul_right _ hd
  have h2 := Nat.div_mul_le_self l.length npix
  have h3 : (d + 1) * npix = d * npix + npix := Nat.succ_mul _ _
  omega

theorem addColumns_ok {g : Grid} {nNorm npix : Nat} (h : 0 < npix) : ∀ (l : List (Name × Hist)) (i : Nat) (t : Table),
    (t.cols.map Column.name ++ l.map Prod.fst).Nodup → ∃ td, addColumns g nNorm npix i l t =
      .ok ⟨t.base, t.cols ++ l.map (fun p => ⟨p.1, cellsOf p.2.data npix⟩), td⟩
  | [], i, t, _ => ⟨t.tdim, by simp [addColumns]⟩
  | (n, hh) :: l, i, t, hn => by
    have hnot : n ∉ t.cols.map Column.name := by
      intro hm
      exact (List.nodup_append.mp hn).2.2 n hm n (by simp) rfl
    rw [addColumns]
    unfold addColumn
    rw [if_neg (by omega), if_neg hnot, column_ok h, Res.bind_ok, Res.bind_ok]
    obtain ⟨td, htd⟩ := addColumns_ok (g := g) (nNorm := nNorm) h l (i + 1) ⟨t.base, t.cols ++ [⟨n, cellsOf hh.data npix⟩],
      newDim (i + 1) (TsScan.tdim g nNorm hh.axes) t.tdim⟩ (by simpa using hn)
    exact ⟨td, by rw [htd]; simp⟩

theorem addColumns_throws {g : Grid} {nNorm npix : Nat} (h : 0 < npix) : ∀ (l : List (Name × Hist)) (i : Nat) (t : Table),
    (t.cols.map Column.name).Nodup → ¬ (t.cols.map Column.name ++ l.map Prod.fst).Nodup → addColumns g nNorm npix i l t = .throws
  | [], i, t, h1, h2 => absurd (by simpa using h1) h2
  | (n, hh) :: l, i, t, h1, h2 => by
    rw [addColumns]
    unfold addColumn
    rw [if_neg (by omega)]
    by_cases hm : n ∈ t.cols.map Column.name
    · rw [if_pos hm]
      rfl
    · rw [if_neg hm, column_ok h, Res.bind_ok, Res.bind_ok]
      refine addColumns_throws h l (i + 1) _ ?_ (by simpa using h2)
      rw [List.map_append, List.nodup_append]
      exact ⟨h1, by simp, fun a ha b hb => by
        simp only [List.map_cons, List.map_nil, List.mem_singleton] at hb
        rintro rfl
        exact hm (hb ▸ ha)⟩

theorem lookup_filter (k j : Nat) : ∀ l : List (Nat × List Nat), j ≠ k → (l.filter (fun p => p.1 ≠ k)).lookup j = l.lookup j
  | [], _ => rfl
  | (a, b) :: l, h => by
    by_cases ha : a = k
    · subst ha
      rw [List.filter_cons_of_neg (by simp), lookup_filter a j l h, List.lookup_cons]
      have : (j == a) = false := by simpa using h
      rw [this]
    · rw [List.filter_cons_of_pos (by simpa using ha), List.lookup_cons, List.lookup_cons, lookup_filter k j l h]

theorem newDim_lookup (k j : Nat) (d : Option (List Nat)) (l : List (Nat × List Nat)) :
    (newDim k d l).lookup j = if j = k then (match d with
      | none => l.lookup j
      | some v => some v) else l.lookup j := by
  unfold newDim
  cases d with
  | none => simp
  | some v =>
    by_cases h : j = k
    · subst h
      simp [setKey]
    · have h' : (j == k) = false := by simpa using h
      simp only [setKey, List.lookup_cons, h', if_neg h]
      exact lookup_filter k j l h

/-- The keywords of the columns that are added. -/
theorem addColumns_tdim {g : Grid} {nNorm npix : Nat} (h : 0 < npix) : ∀ (l : List (Name × Hist)) (i : Nat) (t t' : Table),
    addColumns g nNorm npix i l t = .ok t' → (∀ j, i < j → t.tdim.lookup j = none) →
    ∀ j, i ≤ j → t'.tdim.lookup (j + 1) = (l[j - i]?).bind (fun p => TsScan.tdim g nNorm p.2.axes)
  | [], i, t, t', he, hn, j, hj => by
    rw [addColumns] at he
    obtain rfl := Res.ok.inj he
    rw [hn (j + 1) (by omega)]
    simp
  | (n, hh) :: l, i, t, t', he, hn, j, hj => by
    rw [addColumns] at he
    unfold addColumn at he
    rw [if_neg (by omega)] at he
    by_cases hm : n ∈ t.cols.map Column.name
    · rw [if_pos hm] at he
      cases he
    · rw [if_neg hm, column_ok h, Res.bind_ok, Res.bind_ok] at he
      have hn' : ∀ j, i + 1 < j → (newDim (i + 1) (TsScan.tdim g nNorm hh.axes) t.tdim).lookup j = none := fun j hj => by
        rw [newDim_lookup, if_neg (by omega)]
        exact hn j (by omega)
      by_cases hji : j = i
      · subst hji
        rw [Nat.sub_self]
        have hk := addColumns_keep h l (j + 1) _ t' he (j + 1) (by omega)
        rw [hk, newDim_lookup, if_pos rfl]
        rw [show ((n, hh) :: l)[0]? = some (n, hh) from rfl, Option.bind_some]
        simp only
        cases TsScan.tdim g nNorm hh.axes with
        | none => exact hn (j + 1) (by omega)
        | some v => rfl
      · rw [addColumns_tdim h l (i + 1) _ t' he hn' j (by omega)]
        rw [show j - i = (j - (i + 1)) + 1 by omega, List.getElem?_cons_succ]
where
  addColumns_keep {g : Grid} {nNorm npix : Nat} (h : 0 < npix) : ∀ (l : List (Name × Hist)) (i : Nat) (t t' : Table),
      addColumns g nNorm npix i l t = .ok t' → ∀ j, j ≤ i → t'.tdim.lookup j = t.tdim.lookup j
    | [], i, t, t', he, j, hj => by
      rw [addColumns] at he
      obtain rfl := Res.ok.inj he
      rfl
    | (n, hh) :: l, i, t, t', he, j, hj => by
      rw [addColumns] at he
      unfold addColumn at he
      rw [if_neg (by omega)] at he
      by_cases hm : n ∈ t.cols.map Column.name
      · rw [if_pos hm] at he
        cases he
      · rw [if_neg hm, column_ok h, Res.bind_ok, Res.bind_ok] at he
        rw [addColumns_keep h l (i + 1) _ t' he j (by omega)]
        simp only
        rw [newDim_lookup, if_neg (by omega)]

end Verif.ScanFile
