import Verif.ScanFile.Lemmas
import Mathlib.Tactic.Linarith
/-
The file of a scan over positions, energies and normalizations (C150).
-/
set_option linter.unusedSectionVars false
set_option linter.unusedSimpArgs false
set_option linter.unusedVariables false
namespace Verif.ScanFile

open TsScan (Grid Axis)
open Spec

/-- The grid has positions. -/
def Full (g : Grid) : Prop := 0 < g.nx ∧ ∀ ny, g.ny = some ny → 0 < ny

theorem full_pos {g : Grid} (h : Full g) : 0 < g.nPixels := by
  unfold TsScan.Grid.nPixels
  obtain ⟨h1, h2⟩ := h
  cases hy : g.ny with
  | none => simpa using h1
  | some ny => exact Nat.mul_pos h1 (by simpa using h2 ny hy)

theorem pixDims_prod (g : Grid) : (pixDims g).prod = positions g := by
  unfold pixDims positions
  cases g.ny <;> simp

theorem npix_pos {g : Grid} (h : Full g) (b : Bool) : 0 < (if b = true then g.nPixels else 1) := by
  cases b
  · simp
  · simpa using full_pos h

theorem all_loc {g : Grid} {l : List (Opts × Found)} : ∀ p ∈ allHists g l, outLocs.lookup p.1 = some (locOf p.1.q) ∧
    (p.1.q = .tsMap → p.2.dims = pixDims g) := by
  intro p hp
  unfold allHists at hp
  obtain ⟨x, hx, hp⟩ := List.mem_flatMap.mp hp
  exact hists_loc hp

theorem width_eq (g : Grid) (o : Opts) (q : Quantity) : width g o q = if isMapB q = true then (if o.doMap = true then 1 else positions g)
    else if scanB q = true then g.nE * o.nNorm else g.nE := by
  unfold width
  cases q <;> simp [isMapB, scanB, IsMap, IsScan]

/-- A table of one run. -/
theorem holds_table {g : Grid} {o : Opts} {r : Found} (hg : Full g) (P : Name × Hist → Bool) (p : Quantity → Prop)
    (hP : ∀ n h, P (n, h) = true ↔ p n.q) {t : Table} (hc : t.cols = ((hists g o r).filter P).map
      (fun x => (⟨x.1, cellsOf x.2.data (if o.doMap = true then g.nPixels else 1)⟩ : Column))) : Holds g o r p t := by
  have hnames : t.cols.map Column.name = ((hists g o r).filter P).map Prod.fst := by
    rw [hc, List.map_map]
    rfl
  have hrows : (if o.doMap = true then g.nPixels else 1) = Spec.rows g o := rfl
  have hpos : 0 < Spec.rows g o := hrows ▸ npix_pos hg o.doMap
  have hdata : ∀ c ∈ t.cols, ∃ h, c.cells = cellsOf h.data (Spec.rows g o) ∧ h = histOf g r.vals o.nNorm c.name
      (isMapB c.name.q || o.doMap) (!isMapB c.name.q) (scanB c.name.q) := by
    intro c hcm
    rw [hc] at hcm
    obtain ⟨x, hx, rfl⟩ := List.mem_map.mp hcm
    exact ⟨x.2, rfl, (mem_hists.mp (List.mem_filter.mp hx).1).2⟩
  have hlen : ∀ n : Name, (histOf g r.vals o.nNorm n (isMapB n.q || o.doMap) (!isMapB n.q) (scanB n.q)).data.length =
      width g o n.q * Spec.rows g o := by
    intro n
    have hd := pixDims_prod g
    have hsm : isMapB n.q = true → scanB n.q = false := by cases n.q <;> simp [isMapB, scanB]
    rw [width_eq]
    unfold histOf
    simp only [List.length_map, List.length_range]
    unfold Spec.rows dimsOf
    cases hb : isMapB n.q
    · cases hsb : scanB n.q <;> cases o.doMap <;> simp [hd, Nat.mul_comm, Nat.mul_left_comm]
    · rw [hsm hb]
      cases o.doMap <;> simp [hd]
  have hwid : ∀ n : Name, (histOf g r.vals o.nNorm n (isMapB n.q || o.doMap) (!isMapB n.q) (scanB n.q)).data.length / Spec.rows g o =
      width g o n.q := by
    intro n
    rw [hlen, Nat.mul_div_cancel _ hpos]
  refine ⟨fun n => ?_, ?_, fun c hcm => ?_, fun c hcm cell hcell => ?_, fun c hcm i hi d hd => ?_⟩
  · rw [hnames, List.mem_map]
    constructor
    · rintro ⟨⟨n', h⟩, hx, rfl⟩
      obtain ⟨h1, h2⟩ := List.mem_filter.mp hx
      exact ⟨(mem_hists.mp h1).1, (hP _ _).mp h2⟩
    · rintro ⟨h1, h2⟩
      exact ⟨(n, _), List.mem_filter.mpr ⟨mem_hists.mpr ⟨h1, rfl⟩, (hP _ _).mpr h2⟩, rfl⟩
  · rw [hnames]
    exact (hists_nodup g o r).sublist (List.filter_sublist.map _)
  · obtain ⟨h, h1, h2⟩ := hdata c hcm
    rw [h1]
    simp [cellsOf]
  · obtain ⟨h, h1, h2⟩ := hdata c hcm
    rw [h1] at hcell
    obtain ⟨i, hi, rfl⟩ := List.mem_map.mp hcell
    rw [List.length_map, List.length_range, h2, hwid]
  · obtain ⟨h, h1, h2⟩ := hdata c hcm
    refine ⟨(List.range (h.data.length / Spec.rows g o)).map (fun d => Vec.val h.data (i + d * Spec.rows g o)), ?_, ?_⟩
    · rw [h1]
      unfold cellsOf
      rw [List.getElem?_map, List.getElem?_range hi]
      rfl
    · have hl : i + d * Spec.rows g o < h.data.length := by
        rw [h2, hlen]
        have h3 : (d + 1) * Spec.rows g o ≤ width g o c.name.q * Spec.rows g o := Nat.mul_le_mul_right _ hd
        have h4 : (d + 1) * Spec.rows g o = d * Spec.rows g o + Spec.rows g o := Nat.succ_mul _ _
        omega
      rw [List.getElem?_map, List.getElem?_range (by rw [h2, hwid]; exact hd)]
      simp only [Option.map_some, Option.some.injEq]
      have hv := Vec.getElem?_val hl
      rw [← Option.some.injEq, ← hv]
      rw [h2] at hl ⊢
      unfold histOf at hl ⊢
      simp only [List.length_map, List.length_range] at hl
      simp only
      rw [List.getElem?_map, List.getElem?_range hl]
      rfl

/-- The primary image of the histograms of a run. -/
theorem primary_hists (g : Grid) (o : Opts) (r : Found) (a : Option (List Nat × List ℝ)) (ha : g.ny = none → a = none) :
    lastPrimary g (hists g o r) a = primary g o r := by
  have hsplit : ∀ (l : List (Name × Hist)) (a), (∀ p ∈ l, p.1.q ≠ .tsMap) → lastPrimary g l a = a := by
    intro l
    induction l with
    | nil => intro a _; rfl
    | cons x l ih =>
      obtain ⟨n, h⟩ := x
      intro a hl
      rw [lastPrimary, if_neg (hl (n, h) (by simp))]
      exact ih a (fun p hp => hl p (by simp [hp]))
  have hq : ∀ (L : List (Bool × Name × Bool × Bool × Bool)), (∀ x ∈ L, x.2.1.q ≠ .tsMap) →
      ∀ p ∈ L.filterMap (entry g r.vals o.nNorm), p.1.q ≠ .tsMap := by
    intro L hL p hp
    obtain ⟨x, hx, he⟩ := List.mem_filterMap.mp hp
    unfold entry at he
    split at he
    · obtain rfl := Option.some.inj he
      exact hL x hx
    · cases he
  have hplan : plan o = [(true, ⟨.tsMap, false⟩, true, false, false)] ++ ((plan o).drop 1).take 15 ++
      [(decide (1 < o.level) && o.doMap, ⟨.tsMap, true⟩, true, false, false)] ++ (plan o).drop 17 := rfl
  have h1 : ∀ x ∈ ((plan o).drop 1).take 15, x.2.1.q ≠ .tsMap := by
    intro x hx
    simp only [plan, List.drop_succ_cons, List.drop_zero, List.take_succ_cons, List.take_zero, List.mem_cons,
      List.not_mem_nil, or_false] at hx
    rcases hx with h | h | h | h | h | h | h | h | h | h | h | h | h | h | h <;> subst h <;> simp
  have h2 : ∀ x ∈ (plan o).drop 17, x.2.1.q ≠ .tsMap := by
    intro x hx
    simp only [plan, List.drop_succ_cons, List.drop_zero, List.mem_cons, List.not_mem_nil, or_false] at hx
    rcases hx with h | h | h | h | h <;> subst h <;> simp
  unfold hists
  rw [hplan, List.filterMap_append, List.filterMap_append, List.filterMap_append, lastPrimary_append, lastPrimary_append,
    lastPrimary_append, hsplit _ _ (hq _ h2), hsplit _ _ (hq _ h1)]
  have hdata : ∀ b, (histOf g r.vals o.nNorm ⟨.tsMap, b⟩ true false false).data =
      (List.range (positions g)).map (r.vals ⟨.tsMap, b⟩) := by
    intro b
    unfold histOf dimsOf
    simp [pixDims_prod]
  unfold primary primaryName
  cases hy : g.ny with
  | none =>
    have := ha hy
    subst this
    by_cases hc : (decide (1 < o.level) && o.doMap) = true
    · simp [entry, hc, lastPrimary, hy]
    · simp [entry, hc, lastPrimary, hy]
  | some ny =>
    have hp : positions g = g.nx * ny := by simp [positions, hy]
    by_cases hc : (decide (1 < o.level) && o.doMap) = true
    · have hc' : decide (1 < o.level ∧ o.doMap = true) = true := by simpa using hc
      rw [hc']
      simp only [List.filterMap_cons, List.filterMap_nil, entry, if_pos, hc, lastPrimary, hy, hdata, hp, Option.map_some]
    · have hc' : decide (1 < o.level ∧ o.doMap = true) = false := by
        simpa using hc
      rw [hc']
      simp only [List.filterMap_cons, List.filterMap_nil, entry, if_pos, hc, lastPrimary, hy, hdata, hp, Option.map_some]
      simp [lastPrimary]

/-- After one run, with any mask of parts, the file can be written: the tables of the mask hold exactly what the run found for the
quantities that were asked for, the others are empty; the primary part has the test statistic.  What is missing for the full
property: several runs with one scanner, a mask without the primary part. -/
theorem C150_one_run_partial (g : Grid) (o : Opts) (r : Found) (base mask : Nat) (gti : Bool) (hg : Full g) (hr : r.status = 0) :
    ∃ s f, runs [(o, r)] (start g) = .ok s ∧ write base gti mask s = .ok f ∧
      f.primary = primary g o r ∧ f.images = [] ∧
      (mask.testBit 2 = true → Holds g o r IsMap f.fit) ∧ (mask.testBit 2 = false → f.fit.cols = []) ∧
      (mask.testBit 3 = true → Holds g o r (fun q => ¬ IsMap q) f.scan) ∧ (mask.testBit 3 = false → f.scan.cols = []) ∧
      (f.energies = true ↔ mask.testBit 4 = true) ∧
      f.baseline = (if mask.testBit 5 then some (r.pars, r.covs) else none) ∧ f.gtis = gti := by
  have hrun : runs [(o, r)] (start g) = .ok ⟨g, hists g o r, outLocs, o.doMap, if 0 < o.nNorm then some o.nNorm else none,
      some (r.pars, r.covs)⟩ := by
    rw [runs, run_good hr, Res.bind_ok]
    rfl
  have hsort := sortHists_ok (mask := mask) hg.1 hg.2 (hists g o r) ⟨none, [], [], []⟩ (fun p hp => hists_loc hp)
  have hprim := primary_hists g o r none (fun _ => rfl)
  simp only [List.nil_append, hprim] at hsort
  have hnd : ∀ P : Name × Hist → Bool, (((hists g o r).filter P).map Prod.fst).Nodup := fun P =>
    (hists_nodup g o r).sublist (List.filter_sublist.map _)
  obtain ⟨td1, h1⟩ := addColumns_ok (g := g) (nNorm := (if 0 < o.nNorm then some o.nNorm else none).getD 0)
    (npix_pos hg o.doMap) ((hists g o r).filter (fun p => isMapB p.1.q && mask.testBit 2)) 0 ⟨base, [], []⟩ (by simpa using hnd _)
  obtain ⟨td2, h2⟩ := addColumns_ok (g := g) (nNorm := (if 0 < o.nNorm then some o.nNorm else none).getD 0)
    (npix_pos hg o.doMap) ((hists g o r).filter (fun p => !isMapB p.1.q && mask.testBit 3)) 0 ⟨base, [], []⟩ (by simpa using hnd _)
  have e4 : ((4 : Nat) &&& mask ≠ 0) ↔ mask.testBit 2 = true := and_pow 2 mask
  have e8 : ((8 : Nat) &&& mask ≠ 0) ↔ mask.testBit 3 = true := and_pow 3 mask
  have e16 : ((16 : Nat) &&& mask ≠ 0) ↔ mask.testBit 4 = true := and_pow 4 mask
  have e32 : ((32 : Nat) &&& mask ≠ 0) ↔ mask.testBit 5 = true := and_pow 5 mask
  have hw : ∃ f, write base gti mask ⟨g, hists g o r, outLocs, o.doMap, if 0 < o.nNorm then some o.nNorm else none,
      some (r.pars, r.covs)⟩ = .ok f ∧ f.primary = primary g o r ∧ f.images = [] ∧
      f.fit = (if mask.testBit 2 = true then ⟨base, ((hists g o r).filter (fun p => isMapB p.1.q && mask.testBit 2)).map
        (fun p => ⟨p.1, cellsOf p.2.data (if o.doMap = true then g.nPixels else 1)⟩), td1⟩ else ⟨base, [], []⟩) ∧
      f.scan = (if mask.testBit 3 = true then ⟨base, ((hists g o r).filter (fun p => !isMapB p.1.q && mask.testBit 3)).map
        (fun p => ⟨p.1, cellsOf p.2.data (if o.doMap = true then g.nPixels else 1)⟩), td2⟩ else ⟨base, [], []⟩) ∧
      f.energies = decide ((16 : Nat) &&& mask ≠ 0) ∧ f.baseline = (if (32 : Nat) &&& mask ≠ 0 then some (r.pars, r.covs) else none) ∧
      f.gtis = gti := by
    unfold write
    simp only
    rw [hsort, Res.bind_ok]
    unfold writeTable
    simp only
    rw [h1, h2]
    refine ⟨⟨primary g o r, [],
      (if mask.testBit 2 = true then ⟨base, ((hists g o r).filter (fun p => isMapB p.1.q && mask.testBit 2)).map
        (fun p => ⟨p.1, cellsOf p.2.data (if o.doMap = true then g.nPixels else 1)⟩), td1⟩ else ⟨base, [], []⟩),
      (if mask.testBit 3 = true then ⟨base, ((hists g o r).filter (fun p => !isMapB p.1.q && mask.testBit 3)).map
        (fun p => ⟨p.1, cellsOf p.2.data (if o.doMap = true then g.nPixels else 1)⟩), td2⟩ else ⟨base, [], []⟩),
      decide ((16 : Nat) &&& mask ≠ 0), (if (32 : Nat) &&& mask ≠ 0 then some (r.pars, r.covs) else none), gti⟩,
      ?_, rfl, rfl, rfl, rfl, rfl, rfl, rfl⟩
    have d4 : decide ((4 : Nat) &&& mask ≠ 0) = mask.testBit 2 := by rw [Bool.eq_iff_iff, decide_eq_true_iff, e4]
    have d8 : decide ((8 : Nat) &&& mask ≠ 0) = mask.testBit 3 := by rw [Bool.eq_iff_iff, decide_eq_true_iff, e8]
    rw [d4, d8]
    cases mask.testBit 2 <;> cases mask.testBit 3 <;> simp
  obtain ⟨f, w1, w2, w3, w4, w5, w6, w7, w8⟩ := hw
  refine ⟨_, f, hrun, w1, w2, w3, fun hb => ?_, fun hb => ?_, fun hb => ?_, fun hb => ?_, ?_, ?_, w8⟩
  · rw [w4, if_pos hb]
    exact holds_table hg (fun p => isMapB p.1.q && mask.testBit 2) IsMap (fun n h => by simp [hb, isMapB_iff]) rfl
  · rw [w4, hb]
    rfl
  · rw [w5, if_pos hb]
    refine holds_table hg (fun p => !isMapB p.1.q && mask.testBit 3) (fun q => ¬ IsMap q) (fun n h => ?_) rfl
    rw [← isMapB_iff]
    simp [hb]
  · rw [w5, hb]
    rfl
  · rw [w6, decide_eq_true_iff]
    exact e16
  · rw [w7]
    by_cases hb : mask.testBit 5 = true
    · rw [if_pos (e32.mpr hb), if_pos hb]
    · rw [if_neg (fun h => hb (e32.mp h)), if_neg hb]

example : Full ⟨3, some 2, 4⟩ ∧ (0x3F : Nat).testBit 2 = true := by
  refine ⟨⟨by decide, fun ny h => ?_⟩, by decide⟩
  obtain rfl := Option.some.inj h
  decide

/-- Two runs with one scanner: the histograms of the first are still there, so that a column is asked for twice, and no file with the
table of fits can be written. -/
theorem C150_second_run_violates (g : Grid) (l : List (Opts × Found)) (base mask : Nat) (gti : Bool) (hg : Full g)
    (hl : 2 ≤ (l.filter (fun p => p.2.status = 0)).length) (hm : mask.testBit 2 = true) :
    ∃ s, runs l (start g) = .ok s ∧ write base gti mask s = .throws := by
  obtain ⟨s, h1, h2, h3, h4⟩ := runs_ok l (start g)
  refine ⟨s, h1, ?_⟩
  have hgr : s.grid = g := h2
  have hsd : s.scanData = allHists g l := by simpa [start] using h3
  have hloc : s.locs = outLocs := by
    cases hlg : lastGood l with
    | none =>
      unfold lastGood at hlg
      rw [List.getLast?_eq_none_iff] at hlg
      rw [hlg] at hl
      simp at hl
    | some p =>
      rw [hlg] at h4
      exact h4.1
  unfold write
  rw [hgr, hloc, hsd, sortHists_ok hg.1 hg.2 _ _ (all_loc), Res.bind_ok]
  have hth : writeTable s (decide ((4 : Nat) &&& mask ≠ 0)) ([] ++ (allHists g l).filter (fun p => isMapB p.1.q && mask.testBit 2))
      ⟨base, [], []⟩ = .throws := by
    unfold writeTable
    rw [if_pos (by simpa using (and_pow 2 mask).mpr hm), hgr]
    refine addColumns_throws (npix_pos hg s.hasMap) _ _ _ (by simp) ?_
    intro hnd
    simp only [List.map_nil, List.nil_append] at hnd
    unfold allHists at hnd
    match hf : l.filter (fun p => decide (p.2.status = 0)), hl with
    | a :: b :: m, _ =>
      rw [hf] at hnd
      simp only [List.flatMap_cons, List.filter_append, List.map_append] at hnd
      have hin : ∀ x : Opts × Found, (⟨.tsMap, false⟩ : Name) ∈
          ((hists g x.1 x.2).filter (fun p => isMapB p.1.q && mask.testBit 2)).map Prod.fst := by
        intro x
        rw [List.mem_map]
        exact ⟨(⟨.tsMap, false⟩, _), List.mem_filter.mpr ⟨mem_hists.mpr ⟨by simp [Asked], rfl⟩, by simp [isMapB, hm]⟩, rfl⟩
      exact (List.nodup_append.mp hnd).2.2 _ (hin a) _ (List.mem_append_left _ (hin b)) rfl
    | [a], hh => exact absurd hh (by rw [hf]; simp)
    | [], hh => exact absurd hh (by rw [hf]; simp)
  rw [hth]
  rfl

example : ∃ l : List (Opts × Found), 2 ≤ (l.filter (fun p => p.2.status = 0)).length :=
  ⟨[(⟨true, false, 0, 0⟩, ⟨0, fun _ _ => 1, [], []⟩), (⟨false, true, 5, 0⟩, ⟨0, fun _ _ => 2, [], []⟩)], by simp⟩

/-- Whatever runs there were, the image in the primary part of a file that can be written is that of the last run whose first fit
succeeded, and so are the parameters of this fit. -/
theorem C150_primary_last (g : Grid) (l : List (Opts × Found)) (o : Opts) (r : Found) (base mask : Nat) (gti : Bool) (hg : Full g)
    (hl : lastGood l = some (o, r)) : ∃ s, runs l (start g) = .ok s ∧ ∀ f, write base gti mask s = .ok f →
      f.primary = primary g o r ∧ f.baseline = (if mask.testBit 5 then some (r.pars, r.covs) else none) := by
  obtain ⟨s, h1, h2, h3, h4⟩ := runs_ok l (start g)
  refine ⟨s, h1, fun f hf => ?_⟩
  have hgr : s.grid = g := h2
  have hsd : s.scanData = allHists g l := by simpa [start] using h3
  rw [hl] at h4
  obtain ⟨k1, k2, k3, k4⟩ := h4
  unfold write at hf
  rw [hgr, k1, hsd, sortHists_ok hg.1 hg.2 _ _ (all_loc), Res.bind_ok] at hf
  simp only at hf
  obtain ⟨t1, -, hf⟩ := Res.bind_eq_ok.mp hf
  obtain ⟨t2, -, hf⟩ := Res.bind_eq_ok.mp hf
  obtain rfl := Res.ok.inj hf
  simp only
  constructor
  · unfold lastGood at hl
    obtain ⟨m, hm⟩ : ∃ m, l.filter (fun p => decide (p.2.status = 0)) = m ++ [(o, r)] := List.getLast?_eq_some_iff.mp hl
    unfold allHists
    rw [hm, List.flatMap_append, lastPrimary_append]
    simp only [List.flatMap_cons, List.flatMap_nil, List.append_nil]
    refine primary_hists g o r _ (fun hy => ?_)
    have : ∀ L : List (Name × Hist), lastPrimary g L none = none := by
      intro L
      induction L with
      | nil => rfl
      | cons x L ih =>
        obtain ⟨n, h⟩ := x
        rw [lastPrimary, hy]
        simp [ih]
    exact this _
  · have e32 : ((32 : Nat) &&& mask ≠ 0) ↔ mask.testBit 5 = true := and_pow 5 mask
    rw [k3]
    by_cases hb : mask.testBit 5 = true
    · rw [if_pos (e32.mpr hb), if_pos hb]
    · rw [if_neg (fun h => hb (e32.mp h)), if_neg hb]

example : lastGood [(⟨true, true, 5, 0⟩, ⟨0, fun _ _ => 1, [], []⟩), (⟨true, false, 0, 2⟩, ⟨0, fun _ _ => 2, [1], [[4]]⟩),
    (⟨true, false, 0, 0⟩, ⟨3, fun _ _ => 0, [], []⟩)] = some (⟨true, false, 0, 2⟩, ⟨0, fun _ _ => 2, [1], [[4]]⟩) := by
  simp [lastGood]

/-- The primary part is written although the mask excludes it. -/
theorem C150_primary_mask_violates (g : Grid) (o : Opts) (r : Found) (base mask ny : Nat) (gti : Bool) (hg : Full g) (hr : r.status = 0)
    (hy : g.ny = some ny) (hm : mask.testBit 0 = false) :
    ∃ s f i, runs [(o, r)] (start g) = .ok s ∧ write base gti mask s = .ok f ∧ f.primary = some i := by
  obtain ⟨s, f, h1, h2, h3, -⟩ := C150_one_run_partial g o r base mask gti hg hr
  refine ⟨s, f, ([g.nx, ny], (List.range (g.nx * ny)).map (r.vals (primaryName o))), h1, h2, ?_⟩
  rw [h3]
  unfold primary
  rw [hy]
  rfl

example : (0x3E : Nat).testBit 0 = false := by decide

/-- A run whose first fit fails changes nothing: the file is that of the runs before. -/
theorem C150_failed_run (g : Grid) (l : List (Opts × Found)) (o : Opts) (r : Found) (hr : r.status ≠ 0) :
    ∃ s, runs l (start g) = .ok s ∧ runs (l ++ [(o, r)]) (start g) = .ok s := by
  obtain ⟨s, h1, -⟩ := runs_ok l (start g)
  refine ⟨s, h1, ?_⟩
  have happ : ∀ (l m : List (Opts × Found)) (s : Scanner), runs (l ++ m) s = (runs l s).bind (fun s' => runs m s') := by
    intro l
    induction l with
    | nil => intro m s; rfl
    | cons x l ih =>
      intro m s
      obtain ⟨o, r⟩ := x
      rw [List.cons_append, runs, runs]
      cases hrun : run o r s with
      | ok s' => exact ih m s'
      | throws => rfl
      | ub => rfl
  rw [happ, h1]
  change runs [(o, r)] s = .ok s
  rw [runs, run_bad hr, Res.bind_ok, runs]

/-- The keyword with the dimensions of a cell: that of number `j + 1` is for the column that was added after `j` others, and is there
for scans over normalizations only. -/
theorem C150_tdim (g : Grid) (o : Opts) (r : Found) (base mask : Nat) (gti : Bool) (hg : Full g) (hr : r.status = 0)
    (hm : mask.testBit 3 = true) :
    ∃ s f, runs [(o, r)] (start g) = .ok s ∧ write base gti mask s = .ok f ∧
      ∀ j, f.scan.tdim.lookup (j + 1) = (f.scan.cols[j]?).bind (fun c =>
        open Classical in if IsScan c.name.q then some [o.nNorm, g.nE] else none) := by
  obtain ⟨s, f, h1, h2, -⟩ := C150_one_run_partial g o r base mask gti hg hr
  refine ⟨s, f, h1, h2, fun j => ?_⟩
  have hrun : runs [(o, r)] (start g) = .ok ⟨g, hists g o r, outLocs, o.doMap, if 0 < o.nNorm then some o.nNorm else none,
      some (r.pars, r.covs)⟩ := by
    rw [runs, run_good hr, Res.bind_ok]
    rfl
  obtain rfl := Res.ok.inj (h1.symm.trans hrun)
  unfold write at h2
  simp only at h2
  rw [sortHists_ok hg.1 hg.2 _ _ (fun p hp => hists_loc hp), Res.bind_ok] at h2
  obtain ⟨t1, -, h2⟩ := Res.bind_eq_ok.mp h2
  obtain ⟨t2, ht, h2⟩ := Res.bind_eq_ok.mp h2
  obtain rfl := Res.ok.inj h2
  simp only
  unfold writeTable at ht
  rw [if_pos (by simpa using (and_pow 3 mask).mpr hm)] at ht
  simp only [List.nil_append] at ht
  have hk := addColumns_tdim (npix_pos hg o.doMap) _ 0 ⟨base, [], []⟩ t2 ht (fun j _ => rfl) j (Nat.zero_le _)
  obtain ⟨td, htd⟩ := addColumns_ok (g := g) (nNorm := (if 0 < o.nNorm then some o.nNorm else none).getD 0)
    (npix_pos hg o.doMap) ((hists g o r).filter (fun p => !isMapB p.1.q && mask.testBit 3)) 0 ⟨base, [], []⟩
    (by simpa using (hists_nodup g o r).sublist (List.filter_sublist.map _))
  obtain rfl := Res.ok.inj (ht.symm.trans htd)
  rw [hk, Nat.sub_zero]
  simp only [List.nil_append, List.getElem?_map]
  cases hx : ((hists g o r).filter (fun p => !isMapB p.1.q && mask.testBit 3))[j]? with
  | none => rfl
  | some x =>
    obtain ⟨n, h⟩ := x
    obtain ⟨hmem, hP⟩ := List.mem_filter.mp (List.mem_of_getElem? hx)
    obtain ⟨ha, rfl⟩ := mem_hists.mp hmem
    have hmap : isMapB n.q = false := by
      simp only [Bool.and_eq_true, Bool.not_eq_true'] at hP
      exact hP.1
    simp only [Option.bind_some, Option.map_some]
    have hs := scanB_iff n.q
    by_cases hsc : IsScan n.q
    · rw [if_pos hsc]
      have hn : 0 < o.nNorm := by
        unfold Asked at ha
        revert ha hsc
        cases n.q <;> simp [IsScan] <;> intro h _ <;> exact h
      unfold histOf axesOf TsScan.tdim
      rw [hs.mpr hsc, hmap, if_pos hn]
      cases o.doMap <;> simp
    · rw [if_neg hsc]
      unfold histOf axesOf TsScan.tdim
      have hsf : scanB n.q = false := by
        cases hb : scanB n.q
        · rfl
        · exact absurd (hs.mp hb) hsc
      rw [hsf, hmap]
      cases o.doMap <;> simp

/-! ### Units -/

theorem setUnits_get : ∀ (l : List String) (i : Nat) (h : Header) (k : Kw),
    (setUnits i l h).kws k = match k with
      | .tdim j => if i < j ∧ j ≤ i + l.length then l[j - i - 1]? else h.kws k
      | _ => h.kws k
  | [], i, h, k => by
    cases k <;> simp [setUnits]
  | u :: l, i, h, k => by
    rw [setUnits, setUnits_get l (i + 1)]
    cases k with
    | ttype j => simp [setUnit, Header.set]
    | tunit j => simp [setUnit, Header.set]
    | tdim j =>
      simp only [List.length_cons]
      by_cases h1 : i + 1 < j ∧ j ≤ i + 1 + l.length
      · rw [if_pos h1, if_pos (by omega), show j - i - 1 = (j - (i + 1) - 1) + 1 by omega, List.getElem?_cons_succ]
      · rw [if_neg h1]
        by_cases h2 : j = i + 1
        · subst h2
          rw [if_pos (by omega)]
          simp [setUnit, Header.set]
        · rw [if_neg (by omega)]
          simp [setUnit, Header.set, h2]

theorem append_get : ∀ (l : List String) (h : Header), (l.foldl Header.append h).fields = h.fields + l.length ∧
    ∀ k, (l.foldl Header.append h).kws k = match k with
      | .ttype j => if h.fields < j ∧ j ≤ h.fields + l.length then l[j - h.fields - 1]? else h.kws k
      | _ => h.kws k
  | [], h => ⟨rfl, fun k => by
    cases k <;> simp⟩
  | u :: l, h => by
    obtain ⟨h1, h2⟩ := append_get l (h.append u)
    refine ⟨by rw [List.foldl_cons, h1]; simp [Header.append]; omega, fun k => ?_⟩
    rw [List.foldl_cons, h2]
    cases k with
    | tdim j => simp [Header.append]
    | tunit j => simp [Header.append]
    | ttype j =>
      simp only [List.length_cons]
      have hf : (h.append u).fields = h.fields + 1 := rfl
      rw [hf]
      by_cases c1 : h.fields + 1 < j ∧ j ≤ h.fields + 1 + l.length
      · rw [if_pos c1, if_pos (by omega), show j - h.fields - 1 = (j - (h.fields + 1) - 1) + 1 by omega, List.getElem?_cons_succ]
      · rw [if_neg c1]
        by_cases c2 : j = h.fields + 1
        · subst c2
          rw [if_pos (by omega)]
          simp [Header.append]
        · rw [if_neg (by omega)]
          simp [Header.append, c2]

/-- The reference columns of the table of energies do not get their units: in a table where the columns that are to come have no
keyword yet and their names are new, none has one afterwards, and the keyword for the dimensions of their cells is a unit. -/
theorem C150_units_violates (h : Header) (hu : ∀ i, h.fields < i → h.kws (.tunit i) = none)
    (hn : ∀ n ∈ fluxNames, ∀ i, h.kws (.ttype i) ≠ some n) (j : Nat) (hj : j < 5) :
    ∃ n u, fluxNames[j]? = some n ∧ fluxUnits[j]? = some u ∧ (fluxHeader h).kws (.ttype (h.fields + j + 1)) = some n ∧
      (∀ v, ¬ HasUnit (fluxHeader h) n v) ∧ (fluxHeader h).kws (.tdim (h.fields + j + 1)) = some u := by
  have h1 : fluxNames[j]? = some (fluxNames[j]'hj) := List.getElem?_eq_getElem hj
  have h2 : fluxUnits[j]? = some (fluxUnits[j]'hj) := List.getElem?_eq_getElem hj
  have hl : fluxUnits.length = 5 := rfl
  have hl' : fluxNames.length = 5 := rfl
  refine ⟨_, _, h1, h2, ?_, ?_, ?_⟩
  · unfold fluxHeader
    rw [setUnits_get]
    simp only
    rw [(append_get fluxNames h).2]
    simp only
    rw [if_pos (by omega), show h.fields + j + 1 - h.fields - 1 = j by omega, h1]
  · rintro v ⟨i, hi1, hi2⟩
    unfold fluxHeader at hi1 hi2
    rw [setUnits_get] at hi1 hi2
    simp only at hi1 hi2
    rw [(append_get fluxNames h).2] at hi1 hi2
    simp only at hi1 hi2
    by_cases hc : h.fields < i
    · rw [hu i hc] at hi2
      cases hi2
    · rw [if_neg (by omega)] at hi1
      exact hn _ (List.getElem_mem _) i hi1
  · unfold fluxHeader
    rw [setUnits_get]
    simp only
    rw [if_pos (by omega), show h.fields + j + 1 - h.fields - 1 = j by omega, h2]

example : ∀ i, (⟨3, fun k => if k = .tunit 2 then some "keV" else none⟩ : Header).fields < i →
    (⟨3, fun k => if k = .tunit 2 then some "keV" else none⟩ : Header).kws (.tunit i) = none := by
  intro i hi
  simp only at hi
  have : i ≠ 2 := by omega
  simp [this]

/-- The columns that were there before keep their keywords. -/
theorem C150_units_kept (h : Header) (i : Nat) (hi : i ≤ h.fields) :
    (fluxHeader h).kws (.ttype i) = h.kws (.ttype i) ∧ (fluxHeader h).kws (.tdim i) = h.kws (.tdim i) ∧
      (fluxHeader h).kws (.tunit i) = h.kws (.tunit i) := by
  unfold fluxHeader
  refine ⟨?_, ?_, ?_⟩
  · rw [setUnits_get]
    simp only
    rw [(append_get fluxNames h).2]
    simp only
    rw [if_neg (by omega)]
  · rw [setUnits_get]
    simp only
    rw [if_neg (by omega), (append_get fluxNames h).2]
  · rw [setUnits_get]
    simp only
    rw [(append_get fluxNames h).2]

end Verif.ScanFile
