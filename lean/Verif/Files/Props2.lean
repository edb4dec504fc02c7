import Verif.Files.Model2
import Verif.Files.Spec2
import Verif.Energy.Lemmas
import Verif.Drm.Lemmas
import Verif.MapInt.Lemmas
import Mathlib.Tactic.NormNum
set_option linter.unusedSectionVars false
set_option linter.unusedSimpArgs false
set_option linter.unusedVariables false
/-
C102: the table of parameters.  C103: the table of the energy response.
-/
namespace Verif.Files
open Verif Verif.Vec Spec

/-! ### Parameters -/

/-- The row of a parameter. -/
def rowOf (x : Name × Name × Par) : Row :=
  ⟨clip x.1, clip x.2.1, clip x.2.2.name, x.2.2.value, x.2.2.scale, x.2.2.error, x.2.2.free⟩

theorem writeFunc_eq (srcName : Name) (f : Func) (rows : List Row) :
    writeFunc srcName (rows, rows.length) f =
      (rows ++ f.pars.map (fun p => rowOf (srcName, f.name, p)), (rows ++ f.pars.map (fun p => rowOf (srcName, f.name, p))).length) := by
  unfold writeFunc
  generalize f.pars = l
  induction l generalizing rows with
  | nil => simp
  | cons p l ih =>
    rw [List.foldl_cons]
    have e : writePar srcName f.name p (rows, rows.length) =
        (rows ++ [rowOf (srcName, f.name, p)], (rows ++ [rowOf (srcName, f.name, p)]).length) := by
      unfold writePar rowOf
      simp
    rw [e, ih]
    simp

theorem writeSrc_eq (x : Src) (rows : List Row) :
    writeSrc (rows, rows.length) x = (rows ++ (listing [x]).map rowOf, (rows ++ (listing [x]).map rowOf).length) := by
  unfold writeSrc listing
  simp only [List.flatMap_cons, List.flatMap_nil, List.append_nil]
  generalize x.others ++ [x.spectrum] = l
  induction l generalizing rows with
  | nil => simp
  | cons f l ih =>
    rw [List.foldl_cons, writeFunc_eq, ih]
    simp [List.map_flatMap, Function.comp_def]

theorem writePars_eq (srcs : List Src) : writePars srcs = (listing srcs).map rowOf := by
  have key : ∀ (l : List Src) (rows : List Row), (l.foldl writeSrc (rows, rows.length)).1 = rows ++ (listing l).map rowOf := by
    intro l
    induction l with
    | nil => intro rows; simp [listing]
    | cons x l ih =>
      intro rows
      rw [List.foldl_cons, writeSrc_eq, ih]
      simp [listing]
  exact (key srcs []).trans (List.nil_append _)

/-- C102, in part.  The table has exactly one row for each parameter of each function of each source,
in order, and the row says everything about the parameter, except for characters of names beyond the
32nd. -/
theorem C102_written_partial (srcs : List Src) : List.Forall₂ Describes (listing srcs) (writePars srcs) := by
  rw [writePars_eq]
  generalize listing srcs = l
  induction l with
  | nil => exact List.Forall₂.nil
  | cons x l ih => exact List.Forall₂.cons ⟨rfl, rfl, rfl, rfl, rfl, rfl, rfl⟩ ih

/-- A source with two functions, as an example. -/
def crab : Src := ⟨"Crab".toList, ⟨"PowerLaw".toList, [⟨"Prefactor".toList, 2, 1, 0, true⟩, ⟨"Index".toList, -2, 1, 0, false⟩]⟩,
  [⟨"SkyDirFunction".toList, [⟨"RA".toList, 83, 1, 0, false⟩, ⟨"DEC".toList, 22, 1, 0, false⟩]⟩]⟩

/-- A non-trivial case: four rows. -/
example : (writePars [crab]).length = 4 := by
  rw [writePars_eq]
  rfl

/-- C102 is violated: two models that differ only in names behind the 32nd character give the same
table. -/
theorem C102_names_violates (a b : Name) (hab : a ≠ b) (h32 : a.take 32 = b.take 32) (x : Src) :
    ({ x with name := a } : Src) ≠ { x with name := b } ∧
      writePars [{ x with name := a }] = writePars [{ x with name := b }] := by
  refine ⟨fun h => hab (congrArg Src.name h), ?_⟩
  rw [writePars_eq, writePars_eq]
  unfold listing
  simp only [List.flatMap_cons, List.flatMap_nil, List.append_nil, List.map_flatMap, List.map_map]
  congr 1
  funext f
  congr 1
  funext p
  simp only [Function.comp, rowOf, clip, h32]

/-- The hypotheses can be met. -/
example : ∃ a b : Name, a ≠ b ∧ a.take 32 = b.take 32 :=
  ⟨List.replicate 32 'x' ++ ['a'], List.replicate 32 'x' ++ ['b'], by simp, by simp⟩

/-- A row that can be read: its function is named "Spectrum", there is a source with the name of the
*parameter*, and that source has a parameter with the name of the *source*. -/
theorem getParam_ok {m : List Src} {a f s : Name} {p : Par} (h : getParam m a f s = .ok p) :
    f = spectrumName ∧ ∃ x ∈ m, x.name = s ∧ ∃ q ∈ x.spectrum.pars, q.name = a := by
  unfold getParam at h
  split at h
  · simp at h
  · rename_i x hx
    split at h
    · rename_i hf
      split at h
      · simp at h
      · rename_i q hq
        exact ⟨hf, x, List.mem_of_find?_eq_some hx, by simpa using List.find?_some hx, q, List.mem_of_find?_eq_some hq,
          by simpa using List.find?_some hq⟩
    · simp at h

theorem getParam_cases (m : List Src) (a f s : Name) : (∃ p, getParam m a f s = .ok p) ∨ getParam m a f s = .throws := by
  unfold getParam
  split
  · exact Or.inr rfl
  · split
    · split
      · exact Or.inr rfl
      · exact Or.inl ⟨_, rfl⟩
    · exact Or.inr rfl

theorem setParam_cases (m : List Src) (q : Par) (f s : Name) : (∃ m', setParam m q f s = .ok m') ∨ setParam m q f s = .throws := by
  unfold setParam
  split
  · exact Or.inr rfl
  · split
    · split
      · exact Or.inl ⟨_, rfl⟩
      · exact Or.inr rfl
    · exact Or.inr rfl

theorem readRow_cases (m : List Src) (r : Row) : (∃ m', readRow m r = .ok m') ∨ readRow m r = .throws := by
  unfold readRow
  rcases getParam_cases m r.src r.func r.par with ⟨p, hp⟩ | hp
  · rw [hp, Res.bind_ok]
    exact setParam_cases ..
  · rw [hp]
    exact Or.inr rfl

theorem readPars_cases : ∀ (rs : List Row) (m : List Src), (∃ m', readPars m rs = .ok m') ∨ readPars m rs = .throws := by
  intro rs
  induction rs with
  | nil => intro m; exact Or.inl ⟨m, rfl⟩
  | cons r rs ih =>
    intro m
    rw [readPars]
    rcases readRow_cases m r with ⟨m', h⟩ | h
    · rw [h, Res.bind_ok]
      exact ih m'
    · rw [h]
      exact Or.inr rfl

/-- C102 is violated: a table that holds a row for any function not named "Spectrum", such as the
position of a point source, cannot be read. -/
theorem C102_function_violates (m : List Src) (rs : List Row) (h : ∃ r ∈ rs, r.func ≠ spectrumName) : readPars m rs = .throws := by
  rcases readPars_cases rs m with ⟨m', hm⟩ | hm
  · exfalso
    obtain ⟨r, hr, hf⟩ := h
    induction rs generalizing m with
    | nil => simp at hr
    | cons x rs ih =>
      rw [readPars, Res.bind_eq_ok] at hm
      obtain ⟨m1, h1, h2⟩ := hm
      rcases List.mem_cons.1 hr with rfl | hr'
      · unfold readRow at h1
        rw [Res.bind_eq_ok] at h1
        obtain ⟨p, hp, -⟩ := h1
        exact hf (getParam_ok hp).1
      · exact ih m1 h2 hr'
  · exact hm

/-- The hypotheses can be met by the table of a model with a point source. -/
example : ∃ r ∈ writePars [crab], r.func ≠ spectrumName := by
  rw [writePars_eq]
  exact ⟨_, List.mem_cons_self, by decide⟩

/-- C102 is violated whatever the functions are named: the names of source and parameter are
exchanged, so a model in which no source is named like a parameter of the table cannot be restored
from any table with a row, not even from its own. -/
theorem C102_read_violates (m : List Src) (r : Row) (rs : List Row) (h : ∀ x ∈ m, x.name ≠ r.par) : readPars m (r :: rs) = .throws := by
  have h1 : getParam m r.src r.func r.par = .throws := by
    rcases getParam_cases m r.src r.func r.par with ⟨p, hp⟩ | hp
    · obtain ⟨-, x, hx, hn, -⟩ := getParam_ok hp
      exact absurd hn (h x hx)
    · exact hp
  rw [readPars]
  unfold readRow
  rw [h1]
  rfl

/-- The hypotheses can be met by the table of a model and the model itself. -/
example : ∃ r rs, writePars [crab] = r :: rs ∧ ∀ x ∈ [crab], x.name ≠ r.par := by
  rw [writePars_eq]
  refine ⟨_, _, rfl, fun x hx => ?_⟩
  simp at hx
  subst hx
  decide

/-! ### Energy response -/

/-- The table of a response with all its rows. -/
theorem writeDrm_ok {es : List ℝ} {b : Nat} {rows : List (List ℝ)} (hlen : 2 ≤ es.length) (hpos : ∀ e ∈ es, 0 < e)
    (hr : rows.length = es.length + 2 * b - 1) :
    ∃ full t, Energy.expandEnergies es b = .ok full ∧ full.length = es.length + 2 * b ∧
      (∀ k < es.length, val full (b + k) = val es k) ∧ writeDrm es b rows = .ok t ∧ t.length = rows.length ∧
      ∀ k, (h : k < t.length) → t[k].lo = val full k ∧ t[k].hi = val full (k + 1) ∧ rows[k]? = some t[k].matrix := by
  obtain ⟨full, h1, h2, h3, -⟩ := Energy.expand_ok (b := b) hlen hpos
  refine ⟨full, (List.range rows.length).map (fun i => ⟨val full i, val full (i + 1), rows[i]?.getD []⟩), h1, h2, h3, ?_, by simp, ?_⟩
  · unfold writeDrm
    rw [h1, Res.bind_ok, ← hr]
    have h := loop_eq (body := writeDrmRow full rows) (lo := 0) (n := rows.length)
      (fun j => (List.range j).map (fun i => ⟨val full i, val full (i + 1), rows[i]?.getD []⟩))
      (fun i _ hi => by
        rw [Nat.zero_add] at hi
        unfold writeDrmRow
        rw [vget_val (by omega), Res.bind_ok, vget_val (by omega), Res.bind_ok, List.getElem?_eq_getElem hi]
        simp [List.range_succ, List.getElem?_eq_getElem hi])
    simpa using h
  · intro k hk
    simp only [List.length_map, List.length_range] at hk
    simp [hk]

/-- C103, in part.  The table of a response has one row for each true energy, whose limits are
consecutive energies of the extended range, and the energies of the analysis start at the row of the
number of extra bins. -/
theorem C103_written_partial (es : List ℝ) (b : Nat) (rows : List (List ℝ)) (hlen : 2 ≤ es.length) (hpos : ∀ e ∈ es, 0 < e)
    (hr : rows.length = es.length + 2 * b - 1) :
    ∃ t, writeDrm es b rows = .ok t ∧ t.map DrmRow.matrix = rows ∧
      (∀ k, (h : k + 1 < t.length) → t[k].hi = t[k + 1].lo) ∧
      (∀ k, k + 1 < es.length → ∃ h : b + k < t.length, t[b + k].lo = val es k ∧ t[b + k].hi = val es (k + 1)) := by
  obtain ⟨full, t, h1, h2, h3, h4, h5, h6⟩ := writeDrm_ok hlen hpos hr
  refine ⟨t, h4, ?_, ?_, ?_⟩
  · apply List.ext_getElem?
    intro k
    rw [List.getElem?_map]
    by_cases hk : k < t.length
    · rw [List.getElem?_eq_getElem hk, (h6 k hk).2.2]
      rfl
    · rw [List.getElem?_eq_none (by omega), List.getElem?_eq_none (by omega)]
      rfl
  · intro k hk
    rw [(h6 k (by omega)).2.1, (h6 (k + 1) hk).1]
  · intro k hk
    refine ⟨by omega, ?_, ?_⟩
    · rw [(h6 _ _).1, h3 k (by omega)]
    · rw [(h6 _ _).2.1, Nat.add_assoc, h3 (k + 1) (by omega)]

/-- The hypotheses can be met. -/
example : ∃ (es : List ℝ) (b : Nat) (rows : List (List ℝ)), 2 ≤ es.length ∧ (∀ e ∈ es, 0 < e) ∧
    rows.length = es.length + 2 * b - 1 ∧ 0 < b :=
  ⟨[1, 2, 4], 1, [[1, 0], [1, 0], [0, 1], [0, 1]], by simp, by simp, by simp, by norm_num⟩

/-- What the reader makes of the energies. -/
theorem read_energies {es full : List ℝ} {t : List DrmRow} {b : Nat} (h2 : full.length = es.length + 2 * b)
    (ht : t.length = es.length + 2 * b - 1) (h6 : ∀ k, (h : k < t.length) → t[k].lo = val full k) :
    (t.drop 1).map DrmRow.lo = (List.range (es.length + 2 * b - 2)).map (fun k => val full (k + 1)) := by
  apply List.ext_getElem
  · simp
    omega
  · intro k h1 h1'
    simp at h1 h1'
    simp only [List.getElem_map, List.getElem_drop, List.getElem_range]
    rw [h6 (1 + k) (by omega), Nat.add_comm 1 k]

/-- A response made from three or more energies, with as many rows and columns as needed. -/
theorem mk_ok {es : List ℝ} (h : 2 ≤ es.length) (rows : List (List ℝ)) :
    ∃ d, Drm.mkDrm es 0 rows = .ok d ∧ d.nmeas = es.length - 1 ∧ d.bins = 0 ∧ d.rows = rows := by
  unfold Drm.mkDrm
  simp only
  by_cases h2 : 2 ≤ es.length - 1
  · rw [if_pos h2, vget_val (by omega), Res.bind_ok, vget_val (by omega), Res.bind_ok, vget_val (by omega), Res.bind_ok,
      vget_val (by omega), Res.bind_ok, vget_val (by omega), Res.bind_ok, vget_val (by omega), Res.bind_ok]
    exact ⟨_, rfl, rfl, rfl, rfl⟩
  · rw [if_neg h2, vget_val (by omega), Res.bind_ok, vget_val (by omega), Res.bind_ok]
    exact ⟨_, rfl, rfl, rfl, rfl⟩

theorem mapM_ex {α β : Type} (f : α → Res β) : ∀ l : List α, (∀ x ∈ l, ∃ y, f x = .ok y) → ∃ ys, l.mapM f = .ok ys := by
  intro l
  induction l with
  | nil => intro _; exact ⟨[], rfl⟩
  | cons a l ih =>
    intro h
    obtain ⟨y, hy⟩ := h a (by simp)
    obtain ⟨ys, hys⟩ := ih (fun x hx => h x (by simp [hx]))
    exact ⟨y :: ys, by simp [List.mapM_cons, hy, hys]⟩

theorem mapM_ub {α β : Type} (f : α → Res β) : ∀ l : List α, (∀ x ∈ l, (∃ y, f x = .ok y) ∨ f x = .ub) → (∃ x ∈ l, f x = .ub) →
    l.mapM f = .ub := by
  intro l
  induction l with
  | nil => rintro _ ⟨x, hx, -⟩; simp at hx
  | cons a l ih =>
    rintro h ⟨x, hx, hu⟩
    rw [List.mapM_cons]
    rcases h a (by simp) with ⟨y, hy⟩ | ha
    · rw [hy, Res.bind_ok]
      rcases List.mem_cons.1 hx with rfl | hx'
      · rw [hu] at hy
        simp at hy
      · rw [ih (fun z hz => h z (by simp [hz])) ⟨x, hx', hu⟩]
        rfl
    · rw [ha]
      rfl

/-- The columns of a matrix that is large enough. -/
theorem transpose_ok (d : Drm.Rsp) (hr : d.ntrue ≤ d.rows.length) (hc : ∀ r ∈ d.rows, d.nmeas ≤ r.length) :
    ∃ cols, Drm.transpose d = .ok cols := by
  unfold Drm.transpose
  refine mapM_ex _ _ fun kp hkp => mapM_ex _ _ fun k hk => ?_
  simp only [List.mem_range] at hkp hk
  have hk' : k < d.rows.length := by omega
  rw [vget_lt _ _ hk', Res.bind_ok]
  exact ⟨_, vget_lt _ _ (by have := hc _ (List.getElem_mem hk'); omega)⟩

/-- A measured energy without column. -/
theorem transpose_ub (d : Drm.Rsp) (hr : d.ntrue ≤ d.rows.length) (n : Nat) (hc : ∀ r ∈ d.rows, r.length = n) (hn : n < d.nmeas)
    (h0 : 0 < d.ntrue) : Drm.transpose d = .ub := by
  unfold Drm.transpose
  have hin : ∀ kp, (∃ y, (List.range d.ntrue).mapM (fun k => do
      let row ← vget d.rows k
      vget row kp) = .ok y) ∨ (List.range d.ntrue).mapM (fun k => do
      let row ← vget d.rows k
      vget row kp) = .ub := by
    intro kp
    by_cases hkp : kp < n
    · refine Or.inl (mapM_ex _ _ fun k hk => ?_)
      simp only [List.mem_range] at hk
      have hk' : k < d.rows.length := by omega
      rw [vget_lt _ _ hk', Res.bind_ok]
      exact ⟨_, vget_lt _ _ (by rw [hc _ (List.getElem_mem hk')]; exact hkp)⟩
    · refine Or.inr (mapM_ub _ _ (fun k hk => Or.inr ?_) ⟨0, List.mem_range.2 h0, ?_⟩)
      · simp only [List.mem_range] at hk
        have hk' : k < d.rows.length := by omega
        rw [vget_lt _ _ hk', Res.bind_ok]
        exact vget_ge _ _ (by rw [hc _ (List.getElem_mem hk')]; omega)
      · have hk' : 0 < d.rows.length := by omega
        rw [vget_lt _ _ hk', Res.bind_ok]
        exact vget_ge _ _ (by rw [hc _ (List.getElem_mem hk')]; omega)
  refine mapM_ub _ _ (fun kp _ => hin kp) ⟨n, List.mem_range.2 hn, ?_⟩
  refine mapM_ub _ _ (fun k hk => Or.inr ?_) ⟨0, List.mem_range.2 h0, ?_⟩
  · simp only [List.mem_range] at hk
    have hk' : k < d.rows.length := by omega
    rw [vget_lt _ _ hk', Res.bind_ok]
    exact vget_ge _ _ (by rw [hc _ (List.getElem_mem hk')])
  · have hk' : 0 < d.rows.length := by omega
    rw [vget_lt _ _ hk', Res.bind_ok]
    exact vget_ge _ _ (by rw [hc _ (List.getElem_mem hk')])

/-- C103 is violated for a response without extra bins: the response that is read has two measured
energies less than the one that was written. -/
theorem C103_none_violates (es : List ℝ) (rows : List (List ℝ)) (hlen : 4 ≤ es.length) (hpos : ∀ e ∈ es, 0 < e)
    (hr : rows.length = es.length - 1) (hc : ∀ r ∈ rows, r.length = es.length - 1) :
    ∃ t es' d, writeDrm es 0 rows = .ok t ∧ readDrm t = .ok (es', d) ∧ d.rows = rows ∧ d.nmeas = es.length - 3 ∧
      es' = (es.drop 1).take (es.length - 2) := by
  obtain ⟨full, t, h1, h2, h3, h4, h5, h6⟩ := writeDrm_ok (b := 0) (by omega) hpos (by omega : rows.length = es.length + 2 * 0 - 1)
  have hm : t.map DrmRow.matrix = rows := by
    obtain ⟨t', h7, h8, -⟩ := C103_written_partial es 0 rows (by omega) hpos (by omega)
    rw [h4] at h7
    cases h7
    exact h8
  have he := read_energies (t := t) (b := 0) h2 (by omega) (fun k hk => (h6 k hk).1)
  have hel : ((t.drop 1).map DrmRow.lo).length = es.length - 2 := by
    rw [he]
    simp
  obtain ⟨d, g1, g2, g3, g4⟩ := mk_ok (es := (t.drop 1).map DrmRow.lo) (by omega) rows
  have hnt : d.ntrue = es.length - 3 := by
    unfold Drm.Rsp.ntrue
    omega
  obtain ⟨cols, hcols⟩ := transpose_ok d (by rw [g4]; omega) (by
    rw [g4]
    intro r hr'
    rw [hc r hr']
    omega)
  refine ⟨t, (t.drop 1).map DrmRow.lo, d, h4, ?_, g4, by omega, ?_⟩
  · unfold readDrm
    rw [if_neg (by omega)]
    simp only
    rw [hm, g1, Res.bind_ok, hcols, Res.bind_ok]
  · apply ext_val
    · rw [hel]
      simp
      omega
    · intro k hk
      rw [hel] at hk
      rw [he, val_map_range _ (by omega)]
      have := h3 (k + 1) (by omega)
      rw [Nat.zero_add] at this
      rw [this]
      unfold val
      rw [List.getElem?_take, if_pos hk, List.getElem?_drop, Nat.add_comm]

/-- The hypotheses can be met. -/
example : ∃ (es : List ℝ) (rows : List (List ℝ)), 4 ≤ es.length ∧ (∀ e ∈ es, 0 < e) ∧ rows.length = es.length - 1 ∧
    ∀ r ∈ rows, r.length = es.length - 1 :=
  ⟨[1, 2, 4, 8], [[1, 0, 0], [0, 1, 0], [0, 0, 1]], by simp, by simp, by simp, by simp⟩

/-- C103 is violated for a response with two or more extra bins: reading its table runs out of the
matrix. -/
theorem C103_more_violates (es : List ℝ) (b : Nat) (rows : List (List ℝ)) (hlen : 2 ≤ es.length) (hpos : ∀ e ∈ es, 0 < e)
    (hb : 2 ≤ b) (hr : rows.length = es.length + 2 * b - 1) (hc : ∀ r ∈ rows, r.length = es.length - 1) :
    ∃ t, writeDrm es b rows = .ok t ∧ readDrm t = .ub := by
  obtain ⟨full, t, h1, h2, h3, h4, h5, h6⟩ := writeDrm_ok (b := b) hlen hpos hr
  have hm : t.map DrmRow.matrix = rows := by
    obtain ⟨t', h7, h8, -⟩ := C103_written_partial es b rows hlen hpos hr
    rw [h4] at h7
    cases h7
    exact h8
  have he := read_energies (t := t) (b := b) h2 (by omega) (fun k hk => (h6 k hk).1)
  have hel : ((t.drop 1).map DrmRow.lo).length = es.length + 2 * b - 2 := by
    rw [he]
    simp
  obtain ⟨d, g1, g2, g3, g4⟩ := mk_ok (es := (t.drop 1).map DrmRow.lo) (by omega) rows
  have hnt : d.ntrue = es.length + 2 * b - 3 := by
    unfold Drm.Rsp.ntrue
    omega
  refine ⟨t, h4, ?_⟩
  unfold readDrm
  rw [if_neg (by omega)]
  simp only
  rw [hm, g1, Res.bind_ok, transpose_ub d (by rw [g4]; omega) (es.length - 1) (by rw [g4]; exact hc) (by omega) (by omega)]
  rfl

/-- The hypotheses can be met. -/
example : ∃ (es : List ℝ) (b : Nat) (rows : List (List ℝ)), 2 ≤ es.length ∧ (∀ e ∈ es, 0 < e) ∧ 2 ≤ b ∧
    rows.length = es.length + 2 * b - 1 ∧ ∀ r ∈ rows, r.length = es.length - 1 :=
  ⟨[1, 2], 2, [[0], [0], [1], [0], [0]], by simp, by simp, by norm_num, by simp, by simp⟩

/-- C103 is violated for a response with one extra bin: the energies are those of the analysis, but
the response has lost its extra bins, and its rows are one true energy off.  A perfect response, which
gives back the true counts, becomes one that moves the counts down by one bin. -/
theorem C103_one_violates (es : List ℝ) (hlen : 3 ≤ es.length) (hpos : ∀ e ∈ es, 0 < e) :
    let rows := (List.range (es.length + 1)).map fun k => (List.range (es.length - 1)).map fun kp => if k = kp + 1 then (1 : ℝ) else 0
    ∃ t d, writeDrm es 1 rows = .ok t ∧ readDrm t = .ok (es, d) ∧ d.rows = rows ∧ d.bins = 0 ∧
      ∀ c : List ℝ, c.length = es.length - 1 →
        (∀ d0 : Drm.Rsp, d0.nmeas = es.length - 1 → d0.bins = 1 → d0.rows = rows → Drm.convolve d0 c = .ok c) ∧
        ∃ meas, Drm.convolve d c = .ok meas ∧ ∀ k < es.length - 1, val meas k = val c (k + 1) := by
  intro rows
  have hr : rows.length = es.length + 2 * 1 - 1 := by simp [rows]
  have hc : ∀ r ∈ rows, r.length = es.length - 1 := by
    intro r hr
    obtain ⟨k, -, rfl⟩ := List.mem_map.1 hr
    simp
  have hent : ∀ k kp, k < es.length + 1 → kp < es.length - 1 → val (rows[k]?.getD []) kp = if k = kp + 1 then 1 else 0 := by
    intro k kp hk hkp
    have e : rows[k]? = some ((List.range (es.length - 1)).map fun kp => if k = kp + 1 then (1 : ℝ) else 0) := by
      simp [rows, hk]
    rw [e, Option.getD_some, val_map_range _ hkp]
  obtain ⟨full, t, h1, h2, h3, h4, h5, h6⟩ := writeDrm_ok (b := 1) (by omega) hpos hr
  have hm : t.map DrmRow.matrix = rows := by
    obtain ⟨t', h7, h8, -⟩ := C103_written_partial es 1 rows (by omega) hpos hr
    rw [h4] at h7
    cases h7
    exact h8
  have he := read_energies (t := t) (b := 1) h2 (by omega) (fun k hk => (h6 k hk).1)
  have hel : ((t.drop 1).map DrmRow.lo).length = es.length := by
    rw [he]
    simp
  have hes : (t.drop 1).map DrmRow.lo = es := by
    apply ext_val hel
    intro k hk
    rw [hel] at hk
    rw [he, val_map_range _ (by omega), Nat.add_comm, h3 k hk]
  obtain ⟨d, g1, g2, g3, g4⟩ := mk_ok (es := (t.drop 1).map DrmRow.lo) (by omega) rows
  rw [hel] at g2
  have hnt : d.ntrue = es.length - 1 := by
    unfold Drm.Rsp.ntrue
    omega
  obtain ⟨cols, hcols⟩ := transpose_ok d (by rw [g4]; omega) (by
    rw [g4]
    intro r hr'
    rw [hc r hr']
    omega)
  refine ⟨t, d, h4, ?_, g4, g3, fun c hcl => ⟨fun d0 e1 e2 e3 => ?_, ?_⟩⟩
  · unfold readDrm
    rw [if_neg (by omega)]
    simp only
    rw [hm, g1, Res.bind_ok, hcols, Res.bind_ok, hes]
  · have hsz : d0.Sized := ⟨by rw [e3, hr]; unfold Drm.Rsp.ntrue; omega, by rw [e3, e1]; exact hc⟩
    obtain ⟨ext, x1, x2, x3⟩ := Drm.extend_ok d0 (c := c) 1 (Or.inl (by omega))
    rw [Drm.convolve_ok hsz (by omega) (by rw [e2]; exact x1) (by unfold Drm.Rsp.ntrue; omega)]
    congr 1
    apply ext_val
    · simp
      omega
    · intro k hk
      simp only [List.length_map, List.length_range] at hk
      have hnt0 : d0.ntrue = es.length + 1 := by unfold Drm.Rsp.ntrue; omega
      rw [val_map_range _ hk, hnt0]
      rw [Finset.sum_eq_single (k + 1)]
      · unfold Drm.Rsp.entry
        rw [e3, hent (k + 1) k (by omega) (by omega), if_pos rfl, mul_one, Nat.add_comm, x3 k (by omega)]
      · intro j hj hjk
        unfold Drm.Rsp.entry
        rw [e3, hent j k (Finset.mem_range.1 hj) (by omega), if_neg hjk, mul_zero]
      · intro hk'
        exact absurd (Finset.mem_range.2 (by omega)) hk'
  · have hloop : loop (fun kp (acc : ℝ) => (.ok acc : Res ℝ)) 0 0 0 = .ok 0 := rfl
    unfold Drm.convolve
    rw [if_neg (by simp; omega), g3]
    simp only [loop, Res.bind_ok]
    have hin : ∀ kp < es.length - 1, loop (fun k acc => do
        let c ← vget c k
        let row ← vget d.rows k
        let m ← vget row kp
        .ok (acc + c * m)) 0 d.ntrue 0 = .ok (val c (kp + 1)) := by
      intro kp hkp
      rw [loop_sum (fun k => val c k * val (rows[k]?.getD []) kp) 0 (by
        intro k s _ hk
        rw [Nat.zero_add, hnt] at hk
        have hk' : k < rows.length := by omega
        rw [vget_val (by omega), Res.bind_ok, g4, vget_lt _ _ hk', Res.bind_ok, vget_val (by
          rw [hc _ (List.getElem_mem hk')]; exact hkp), Res.bind_ok, List.getElem?_eq_getElem hk', Option.getD_some]), zero_add, hnt]
      congr 1
      by_cases hlast : kp + 1 < es.length - 1
      · rw [Finset.sum_eq_single (kp + 1)]
        · rw [Nat.zero_add, hent (kp + 1) kp (by omega) hkp, if_pos rfl, mul_one]
        · intro j hj hjk
          rw [Nat.zero_add, hent j kp (by have := Finset.mem_range.1 hj; omega) hkp, if_neg hjk, mul_zero]
        · intro hk'
          exact absurd (Finset.mem_range.2 hlast) hk'
      · rw [val_ge (by omega), Finset.sum_eq_zero]
        intro j hj
        have := Finset.mem_range.1 hj
        rw [Nat.zero_add, hent j kp (by omega) hkp, if_neg (by omega), mul_zero]
    refine ⟨(List.range (es.length - 1)).map (fun kp => val c (kp + 1)), ?_, fun k hk => val_map_range _ hk⟩
    rw [g2]
    exact Verif.mapM_ok _ _ _ fun kp hkp => hin kp (List.mem_range.1 hkp)

/-- The hypotheses can be met. -/
example : ∃ es : List ℝ, 3 ≤ es.length ∧ ∀ e ∈ es, 0 < e := ⟨[1, 2, 4], by simp, by simp⟩

end Verif.Files
