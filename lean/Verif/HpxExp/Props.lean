import Verif.HpxExp.Model
import Verif.HpxExp.Spec
import Verif.BinExp.Lemmas
import Mathlib.Tactic.NormNum
set_option linter.unusedSectionVars false
set_option linter.unusedSimpArgs false
set_option linter.unusedVariables false
/-
C121: HEALPix exposure maps.
-/
namespace Verif.HpxExp
open Verif Verif.Vec Spec
open Verif.BinExp (findNearest defaultTol means findNearest_nodup findNearest_throws findNearest_ok
  findNearest_not_ub findNearest_mem means_length val_means)

variable {D : Type}

theorem pixelSum_eq (f : D → ℝ → Nat → ℝ) (resps : List Nat) (d : D) (e : ℝ) :
    pixelSum f resps d e = (resps.map (f d e)).sum := by
  unfold pixelSum
  rw [List.sum_eq_foldl, List.foldl_map]

/-- Looking up a value at a place that exists. -/
theorem read1_ok {planes : List (List (Option ℝ))} {k : Nat} {i : Int} {p : List (Option ℝ)} {x : ℝ}
    (hk : planes[k]? = some p) (h0 : 0 ≤ i) (hi : p[i.toNat]? = some (some x)) :
    read1 planes k i = .ok x := by
  unfold read1 vget
  simp only [hk, Res.bind_ok, hi]
  rw [if_neg (by omega)]

variable {sky : Geom → Sky D} {f : D → ℝ → Nat → ℝ} {resps : List Nat} {g : Geom}

/-- What has been computed. -/
theorem compute_ok {s : Sky D} {es : List ℝ} (hn : resps.Nodup) :
    compute s f resps es = .ok (es.map fun e => (List.range s.npix).map fun i =>
      (resps.map (f (s.centre i) e)).sum) := by
  unfold compute
  rw [if_neg (by tauto)]
  simp only [pixelSum_eq]

/-- A map that gives the exposures: every energy found at position `k` has its plane there. -/
structure Right (m : HMap D) (s : Sky D) (f : D → ℝ → Nat → ℝ) (resps : List Nat) : Prop where
  sky : m.sky = some s
  planes : m.planes = m.energies.map fun e => (List.range s.npix).map fun i =>
      some (resps.map (f (s.centre i) e)).sum

theorem Right.read {m : HMap D} {s : Sky D} (h : Right m s f resps) (hs : Good s) {k : Nat} {e : ℝ}
    (hk : m.energies[k]? = some e) (d : D) : read1 m.planes k (s.pix d) = .ok (exposure s f resps d e) := by
  have hc := hs.covers d
  refine read1_ok (p := (List.range s.npix).map fun i => some (resps.map (f (s.centre i) e)).sum) ?_ hc.1 ?_
  · rw [h.planes, List.getElem?_map, hk]; rfl
  · have hlt : (s.pix d).toNat < s.npix := by omega
    rw [List.getElem?_map, List.getElem?_range hlt]; rfl

theorem Right.lookup {m : HMap D} {s : Sky D} (h : Right m s f resps) (hs : Good s) {k : Nat} {x e : ℝ}
    (hf : findNearest defaultTol m.energies x = .ok k) (hk : m.energies[k]? = some e) (d : D) :
    lookup m x d = .ok (exposure s f resps d e) := by
  have hc := hs.covers d
  have hl : k < m.energies.length := (List.getElem?_eq_some_iff.1 hk).1
  unfold HpxExp.lookup
  rw [hf, Res.bind_ok]
  simp only [h.sky]
  have hw : within s (s.pix d) = true := by unfold within; simp [hc.1, hc.2]
  rw [hw, decide_eq_true hl, Bool.and_true, Bool.not_true, Bool.and_false]
  simp only [Bool.false_eq_true, if_false]
  exact h.read hs hk d

theorem Right.loop {m : HMap D} {s : Sky D} (h : Right m s f resps) (hs : Good s) (d : D) :
    ∀ es : List ℝ, lookupLoop m s (s.pix d) es = es.mapM fun x => HpxExp.lookup m x d := by
  intro es
  induction es with
  | nil => rfl
  | cons x es ih =>
    rw [List.mapM_cons]
    unfold lookupLoop
    have hc := hs.covers d
    have hw : within s (s.pix d) = true := by unfold within; simp [hc.1, hc.2]
    rcases hf : findNearest defaultTol m.energies x with k | _ | _
    · have hl := (findNearest_ok hf).1
      rw [h.lookup hs hf (getElem?_val hl) d]
      rw [Res.bind_ok, Res.bind_ok, hw, decide_eq_true hl]
      simp only [Bool.not_true, Bool.and_false, Bool.false_eq_true, if_false, Bool.and_true, if_true]
      rw [h.read hs (getElem?_val hl) d, Res.bind_ok, ih]
      rfl
    · have : HpxExp.lookup m x d = .throws := by unfold HpxExp.lookup; rw [hf]; rfl
      rw [this]; rfl
    · exact absurd hf findNearest_not_ub

theorem Right.lookups {m : HMap D} {s : Sky D} (h : Right m s f resps) (hs : Good s) (d : D) (es : List ℝ) :
    lookups m d es = es.mapM fun x => HpxExp.lookup m x d := by
  have hc := hs.covers d
  have hw : within s (s.pix d) = true := by unfold within; simp [hc.1, hc.2]
  unfold HpxExp.lookups
  simp only [h.sky]
  rw [hw, Bool.not_true, Bool.and_false]
  simp only [Bool.false_eq_true, if_false]
  exact h.loop hs d es

theorem ofMade_right {s : Sky D} {es : List ℝ} (hsk : sky g = s) (b : Bool) :
    Right { ofMade sky ⟨g, es, es.map fun e => (List.range s.npix).map fun i =>
      (resps.map (f (s.centre i) e)).sum⟩ with enforce := b } s f resps := by
  refine ⟨by simp only [ofMade, hsk], ?_⟩
  simp only [ofMade, List.map_map]
  apply List.map_congr_left
  intro e _
  simp

/-! ### Making a map -/

theorem energiesFor_ok {es : List ℝ} (b : Nat) (ue : Bool) (hlen : 2 ≤ es.length) (hpos : ∀ e ∈ es, 0 < e) :
    ∃ l, energiesFor es b ue = .ok l ∧
      (ue = true → l.length = es.length + 2 * b ∧ ∀ k, k < es.length → l[b + k]? = es[k]?) ∧
      (ue = false → l.length + 1 = es.length + 2 * b ∧
        ∀ k, k + 1 < es.length → ∃ c, l[b + k]? = some c ∧ 0 < c ∧ c * c = val es k * val es (k + 1)) := by
  obtain ⟨out, h1, h2, h3, _⟩ := Energy.expand_ok (b := b) hlen hpos
  unfold energiesFor
  rw [h1, Res.bind_ok]
  cases ue
  · simp only [Bool.false_eq_true, if_false, false_implies, true_and, forall_const]
    have hc : centres out = .ok (means out) := by
      cases out with
      | nil => simp at h2; omega
      | cons a l => rfl
    refine ⟨_, hc, by rw [means_length]; omega, fun k hk => ⟨_, getElem?_val (by rw [means_length]; omega), ?_⟩⟩
    have hp : 0 < val es k * val es (k + 1) :=
      mul_pos (hpos _ (val_mem (by omega))) (hpos _ (val_mem hk))
    have a2 := h3 (k + 1) hk
    rw [← Nat.add_assoc] at a2
    rw [val_means (by omega), h3 k (by omega), a2]
    exact ⟨Real.sqrt_pos.2 hp, Real.mul_self_sqrt hp.le⟩
  · simp only [if_true, forall_const, Bool.true_eq_false, false_implies, and_true]
    refine ⟨out, rfl, h2, fun k hk => ?_⟩
    rw [getElem?_val (by omega), getElem?_val hk, h3 k hk]

/-- C121: a map made for a counts map has the energies of the counts map, or the geometric means of
neighbours, with the additional bins around them; it gives, for each of its energies, the livetime
integrals of all responses at the centre of the pixel the direction is in; both ways to ask agree; and the
boundary flag makes no difference. -/
theorem C121_made (hs : Good (sky g)) (hn : resps.Nodup) (es : List ℝ) (b : Nat) (ue : Bool)
    (hlen : 2 ≤ es.length) (hpos : ∀ e ∈ es, 0 < e) :
    ∃ m, ofCountsMap sky f resps g es b ue = .ok m ∧
      (ue = true → m.energies.length = es.length + 2 * b ∧ ∀ k, k < es.length → m.energies[b + k]? = es[k]?) ∧
      (ue = false → m.energies.length + 1 = es.length + 2 * b ∧
        ∀ k, k + 1 < es.length →
          ∃ c, m.energies[b + k]? = some c ∧ 0 < c ∧ c * c = val es k * val es (k + 1)) ∧
      ∀ enforce : Bool,
        (∀ e ∈ m.energies, ∀ d, lookup { ofMade sky m with enforce := enforce } e d =
          .ok (exposure (sky g) f resps d e)) ∧
        (∀ d xs, (∀ x ∈ xs, x ∈ m.energies) → lookups { ofMade sky m with enforce := enforce } d xs =
          .ok (xs.map (exposure (sky g) f resps d))) := by
  obtain ⟨l, h1, h2, h3⟩ := energiesFor_ok b ue hlen hpos
  refine ⟨_, by unfold ofCountsMap; rw [h1, Res.bind_ok, compute_ok hn, Res.bind_ok], h2, h3, fun enforce => ?_⟩
  have hr := ofMade_right (f := f) (resps := resps) (es := l) (sky := sky) (g := g) rfl enforce
  have hl : ∀ e ∈ l, ∀ d, lookup { ofMade sky ⟨g, l, l.map fun e => (List.range (sky g).npix).map fun i =>
      (resps.map (f ((sky g).centre i) e)).sum⟩ with enforce := enforce } e d =
          .ok (exposure (sky g) f resps d e) := by
    intro e he d
    obtain ⟨k, g1, g2, g3⟩ := findNearest_mem (tol := defaultTol) he
    exact hr.lookup hs g1 (by rw [← g3]; exact getElem?_val g2) d
  refine ⟨hl, fun d xs hx => ?_⟩
  rw [hr.lookups hs d xs]
  exact mapM_ok _ _ xs (fun x h => hl x (hx x h) d)

/-- C121: an energy the map does not have, within one part in 100000, is an error. -/
theorem C121_missing (m : Made) (x : ℝ) (hx : ∀ e ∈ m.energies, e ≠ x ∧ 1e-5 * |x| ≤ |e - x|) (d : D)
    (pre post : List ℝ) (hpre : ∀ e ∈ pre, ∃ v, lookup (ofMade sky m) e d = .ok v) :
    lookup (ofMade sky m) x d = .throws ∧
    (0 ≤ (sky m.geom).pix d → (sky m.geom).pix d < (sky m.geom).npix →
      lookups (ofMade sky m) d (pre ++ x :: post) = .throws) := by
  have hf : findNearest defaultTol m.energies x = .throws := by
    rw [findNearest_throws]
    intro e he
    obtain ⟨h1, h2⟩ := hx e he
    unfold defaultTol
    exact ⟨h1, not_lt.2 h2⟩
  refine ⟨?_, fun h0 h1 => ?_⟩
  · unfold lookup ofMade
    simp only
    rw [hf]; rfl
  · unfold lookups ofMade
    simp only [Bool.false_and, Bool.false_eq_true, if_false]
    induction pre with
    | nil =>
      rw [List.nil_append]
      unfold lookupLoop
      simp only
      rw [hf]; rfl
    | cons p pre ih =>
      rw [List.cons_append]
      unfold lookupLoop
      obtain ⟨v, hv⟩ := hpre p (by simp)
      have ih' := ih (fun e he => hpre e (by simp [he]))
      have hw : within (sky m.geom) ((sky m.geom).pix d) = true := by unfold within; simp [h0, h1]
      unfold lookup ofMade at hv
      simp only [Bool.false_and, Bool.false_eq_true, if_false] at hv ⊢
      rcases hk : findNearest defaultTol m.energies p with k | _ | _
      · rw [hk, Res.bind_ok] at hv
        rw [Res.bind_ok, hw, decide_eq_true (findNearest_ok hk).1]
        simp only [Bool.and_self, if_true]
        rw [hv, Res.bind_ok, ih']; rfl
      · rfl
      · exact absurd hk findNearest_not_ub

/-- C121: a map made for energies and parameters of the application has exactly these energies, and gives
the exposures in the coordinates asked for. -/
theorem C121_all_sky (hs : ∀ g, Good (sky g)) (hn : resps.Nodup) (p : Pars) (es : List ℝ) :
    ∃ m, ofEnergies sky f resps (some p) es = .ok m ∧ m.energies = es ∧
      m.geom.nside = 2 ^ p.order ∧ (m.geom.gal = true ↔ p.coordsys = "GAL") ∧
      (m.geom.ring = true ↔ p.scheme = "RING") ∧
      ∀ e ∈ es, ∀ d, lookup (ofMade sky m) e d = .ok (exposure (sky m.geom) f resps d e) := by
  refine ⟨_, by unfold ofEnergies; simp only; rw [compute_ok hn, Res.bind_ok], rfl, rfl, ?_, ?_, ?_⟩
  · simp [geomOf]
  · simp [geomOf]
  · intro e he d
    have hr := ofMade_right (f := f) (resps := resps) (es := es) (sky := sky) (g := geomOf p) rfl false
    obtain ⟨k, g1, g2, g3⟩ := findNearest_mem (tol := defaultTol) he
    exact hr.lookup (hs _) g1 (by rw [← g3]; exact getElem?_val g2) d

/-- C121 (violated): without parameters, as the constructor allows, the projection is a pointer that was
never set. -/
theorem C121_default_violates (es : List ℝ) : ofEnergies sky f resps none es = .ub := rfl

/-- C121 (violated): two response functions with the same number make the program delete the same object
twice. -/
theorem C121_twice_violates (r : Nat) (p : Pars) (e : ℝ) (es : List ℝ) :
    ofEnergies sky f [r, r] (some p) (e :: es) = .ub := by
  unfold ofEnergies compute
  simp only
  rw [if_pos (by simp)]
  rfl

/-! ### Files -/

theorem isData_name (k : Nat) : isData (columnName k) = true := by
  unfold isData columnName
  rw [List.map_append, show "ENERGY".toList.map Char.toLower = "energy".toList by decide]
  exact List.isPrefixOf_iff_prefix.2 (List.prefix_append _ _)

theorem filter_names (l : List (List ℝ)) (n : Nat) :
    ((l.zipIdx n).map fun p => (columnName p.2, p.1)).filter (fun c => isData c.1) =
      (l.zipIdx n).map fun p => (columnName p.2, p.1) := by
  rw [List.filter_eq_self]
  intro c hc
  obtain ⟨p, _, rfl⟩ := List.mem_map.1 hc
  exact isData_name _

/-- Reading what was written gives the map that was written. -/
theorem ofFile_write (m : Made) : ofFile sky (write sky m) = .ok (ofMade sky m) := by
  unfold ofFile write
  simp only
  rw [filter_names, if_neg (by simp), List.map_map]
  unfold ofMade
  congr 2
  apply List.ext_getElem (by simp)
  intro k h1 h2
  simp

/-- C121: a map written to a file and read again answers every request as before; the file has a column for
each energy of the map and a row for each pixel. -/
theorem C121_file (m : Made) (hm : m.planes.length = m.energies.length)
    (hp : ∀ p ∈ m.planes, p.length = (sky m.geom).npix) :
    Complete (sky m.geom) (write sky m) ∧
    ∃ m', ofFile sky (write sky m) = .ok m' ∧ m'.energies = m.energies ∧
      (∀ e d, lookup m' e d = lookup (ofMade sky m) e d) ∧
      (∀ d es, lookups m' d es = lookups (ofMade sky m) d es) := by
  refine ⟨⟨rfl, ?_, by simp [write, hm]⟩, _, ofFile_write m, rfl, fun _ _ => rfl, fun _ _ => rfl⟩
  intro c hc
  obtain ⟨p, h1, rfl⟩ := List.mem_map.1 hc
  exact hp _ (List.fst_mem_of_mem_zipIdx h1)

/-- The file does not have to be written by this program. -/
theorem ofFile_ok {file : File} (hr : file.nrow ≤ (sky file.geom).npix) :
    ofFile sky file = .ok ⟨file.energies, (file.columns.filter fun c => isData c.1).map fun c =>
      c.2.map some ++ List.replicate ((sky file.geom).npix - file.nrow) none, false, some (sky file.geom)⟩ := by
  unfold ofFile
  simp only
  rw [if_neg (by omega)]

/-- The column of number `k`, looked up. -/
theorem lookup_file {file : File} (hr : file.nrow ≤ (sky file.geom).npix) {m : HMap D}
    (h : ofFile sky file = .ok m) {e : ℝ} {k : Nat} {c : List Char × List ℝ}
    (hf : findNearest defaultTol file.energies e = .ok k)
    (hk : (file.columns.filter fun c => isData c.1)[k]? = some c) (d : D) :
    lookup m e d = read1 m.planes k ((sky file.geom).pix d) ∧
    m.planes[k]? = some (c.2.map some ++ List.replicate ((sky file.geom).npix - file.nrow) none) := by
  rw [ofFile_ok hr] at h
  cases h
  refine ⟨?_, ?_⟩
  · unfold lookup
    simp only
    rw [hf, Res.bind_ok]
    simp
  · rw [List.getElem?_map, hk]; rfl

/-- C121: reading a file with a row for each pixel and a column for each energy, whose names begin with
"energy" in any case: the exposure is in the column of the energy and the row of the pixel.  Columns with
other names make no difference. -/
theorem C121_read (hs : ∀ g, Good (sky g)) (file : File) (data : List (List Char × List ℝ))
    (hd : file.columns.filter (fun c => "energy".toList.isPrefixOf (c.1.map Char.toLower)) = data)
    (hc : Complete (sky file.geom) { file with columns := data }) (hnd : file.energies.Nodup) :
    ∃ m, ofFile sky file = .ok m ∧ m.energies = file.energies ∧
      ∀ (k : Nat) (e : ℝ) (name : List Char) (col : List ℝ) (d : D), file.energies[k]? = some e → data[k]? = some (name, col) →
        ∃ v, col[((sky file.geom).pix d).toNat]? = some v ∧ lookup m e d = .ok v := by
  have hr : file.nrow = (sky file.geom).npix := hc.rows
  refine ⟨_, ofFile_ok hr.le, rfl, fun k e name col d he hcol => ?_⟩
  obtain ⟨hlt, hek⟩ := List.getElem?_eq_some_iff.1 he
  have hf : findNearest defaultTol file.energies e = .ok k := by
    have := findNearest_nodup (tol := defaultTol) hnd hlt
    rwa [show val file.energies k = e by rw [BinExp.val_getElem hlt, hek]] at this
  have hk : (file.columns.filter fun c => isData c.1)[k]? = some (name, col) := by
    rw [← hcol, ← hd]; rfl
  obtain ⟨h1, h2⟩ := lookup_file hr.le (ofFile_ok hr.le) hf hk d
  have hlen : col.length = file.nrow := hc.lengths _ (List.mem_of_getElem? hcol)
  have hb := (hs file.geom).covers d
  have hlt : ((sky file.geom).pix d).toNat < col.length := by omega
  refine ⟨_, List.getElem?_eq_getElem hlt, ?_⟩
  rw [h1]
  refine read1_ok h2 hb.1 ?_
  rw [List.getElem?_append_left (by simpa using hlt), List.getElem?_map, List.getElem?_eq_getElem hlt]
  rfl

/-- C121 (violated): if the file has fewer rows than the sky has pixels, as files for a part of the sky do,
the pixels without a row have values that were never set. -/
theorem C121_short_violates (file : File) (hr : file.nrow < (sky file.geom).npix)
    (k : Nat) (e : ℝ) (name : List Char) (col : List ℝ)
    (hnd : file.energies.Nodup) (he : file.energies[k]? = some e)
    (hk : (file.columns.filter fun c => "energy".toList.isPrefixOf (c.1.map Char.toLower))[k]? = some (name, col))
    (hcol : col.length = file.nrow) (d : D) (h1 : (file.nrow : Int) ≤ (sky file.geom).pix d)
    (h2 : (sky file.geom).pix d < (sky file.geom).npix) :
    ∃ m, ofFile sky file = .ok m ∧ lookup m e d = .ub := by
  obtain ⟨hlt, hek⟩ := List.getElem?_eq_some_iff.1 he
  have hf : findNearest defaultTol file.energies e = .ok k := by
    have := findNearest_nodup (tol := defaultTol) hnd hlt
    rwa [show val file.energies k = e by rw [BinExp.val_getElem hlt, hek]] at this
  obtain ⟨g1, g2⟩ := lookup_file hr.le (ofFile_ok hr.le) hf hk d
  refine ⟨_, ofFile_ok hr.le, ?_⟩
  rw [g1]
  unfold read1 vget
  rw [g2]
  simp only [Res.bind_ok]
  rw [if_neg (by omega), List.getElem?_append_right (by simp; omega), List.getElem?_replicate,
    if_pos (by simp; omega)]
  rfl

/-- C121 (violated): more rows than pixels are written beyond the end of the map. -/
theorem C121_long_violates (file : File) (c : List Char × List ℝ) (hc : c ∈ file.columns)
    (hn : "energy".toList.isPrefixOf (c.1.map Char.toLower) = true)
    (hr : (sky file.geom).npix < file.nrow) : ofFile sky file = .ub := by
  unfold ofFile
  simp only
  have hm : c ∈ file.columns.filter fun c => isData c.1 := List.mem_filter.2 ⟨hc, hn⟩
  rw [if_pos ⟨List.ne_nil_of_mem hm, hr⟩]

/-- C121 (violated): more energies than columns: reading an energy without column is beyond the end. -/
theorem C121_columns_violates (file : File) (hr : file.nrow = (sky file.geom).npix) (k : Nat) (e : ℝ)
    (hnd : file.energies.Nodup) (he : file.energies[k]? = some e)
    (hk : (file.columns.filter fun c => "energy".toList.isPrefixOf (c.1.map Char.toLower)).length ≤ k) (d : D) :
    ∃ m, ofFile sky file = .ok m ∧ lookup m e d = .ub := by
  obtain ⟨hlt, hek⟩ := List.getElem?_eq_some_iff.1 he
  have hf : findNearest defaultTol file.energies e = .ok k := by
    have := findNearest_nodup (tol := defaultTol) hnd hlt
    rwa [show val file.energies k = e by rw [BinExp.val_getElem hlt, hek]] at this
  refine ⟨_, ofFile_ok hr.le, ?_⟩
  unfold lookup
  simp only
  rw [hf, Res.bind_ok]
  simp only [Bool.false_and, Bool.false_eq_true, if_false]
  unfold read1
  rw [vget_ge _ _ (by rw [List.length_map]; exact hk)]
  rfl

/-- C121 (violated): for a direction the projection gives no pixel for, asking for one energy reads outside the map,
where asking for many gives zero. -/
theorem C121_outside_violates (m : Made) (hp : m.planes.length = m.energies.length) (e : ℝ) (he : e ∈ m.energies) (d : D)
    (hd : (sky m.geom).pix d < 0) :
    lookup (ofMade sky m) e d = .ub ∧ lookups (ofMade sky m) d [e] = .ok [0] := by
  obtain ⟨k, h1, h2, _⟩ := findNearest_mem (tol := defaultTol) he
  have hw : within (sky m.geom) ((sky m.geom).pix d) = false := by
    unfold within
    rw [decide_eq_false (by omega), Bool.false_and]
  constructor
  · unfold lookup ofMade
    simp only
    rw [h1, Res.bind_ok]
    simp only [Bool.false_and, Bool.false_eq_true, if_false]
    unfold read1 vget
    rw [List.getElem?_eq_getElem (by simpa [hp] using h2)]
    simp only [Res.bind_ok]
    rw [if_pos hd]
  · unfold lookups ofMade
    simp only [Bool.false_and, Bool.false_eq_true, if_false]
    unfold lookupLoop
    simp only
    rw [h1, Res.bind_ok, hw]
    simp only [Bool.false_and, Bool.false_eq_true, if_false, Res.bind_ok]
    unfold lookupLoop
    rfl

/-! ### Examples -/

/-- A sky of twelve pixels, numbered; directions are numbers. -/
def twelve (_ : Geom) : Sky Nat := ⟨12, fun i => i, fun d => (d % 12 : Nat)⟩

theorem twelve_good (g : Geom) : Good (twelve g) := by
  refine ⟨fun d => ⟨by simp [twelve]; omega, ?_⟩, fun i hi => ?_⟩
  · simp only [twelve]; have := Nat.mod_lt d (show 0 < 12 by norm_num); omega
  · simp only [twelve] at hi ⊢; rw [Nat.mod_eq_of_lt hi]

/-- Two responses, two energies, an additional bin: the direction 14 is in pixel 2. -/
example (f : Nat → ℝ → Nat → ℝ) (g : Geom) : ∃ m, ofCountsMap twelve f [0, 1] g [100, 1000] 1 true = .ok m ∧
    m.energies.length = 4 ∧ lookup (ofMade twelve m) 100 14 = .ok (f 2 100 0 + f 2 100 1) := by
  obtain ⟨m, h1, h2, _, h4⟩ := C121_made (sky := twelve) (f := f) (resps := [0, 1]) (g := g) (twelve_good g)
    (by decide) [100, 1000] 1 true (by simp) (by intro e he; simp at he; rcases he with rfl | rfl <;> norm_num)
  obtain ⟨a1, a2⟩ := h2 rfl
  refine ⟨m, h1, by simpa using a1, ?_⟩
  have hm : (100 : ℝ) ∈ m.energies := List.mem_of_getElem? (by simpa using a2 0 (by simp))
  have := (h4 false).1 100 hm 14
  have he : exposure (twelve g) f [0, 1] 14 100 = f 2 100 0 + f 2 100 1 := by
    simp [exposure, twelve]
  rw [he] at this
  exact this

/-- A projection without a pixel for one direction. -/
example (g : Geom) : ∃ (sky : Geom → Sky Nat) (m : Made) (d : Nat), m.planes.length = m.energies.length ∧
    100 ∈ m.energies ∧ (sky m.geom).pix d < 0 :=
  ⟨fun _ => ⟨12, fun i => i, fun d => if d < 12 then (d : Int) else -1⟩, ⟨g, [100], [List.replicate 12 1]⟩, 12, rfl,
    by simp, by simp⟩

/-- A file with a column of another name. -/
example (g : Geom) : ∃ m, ofFile twelve ⟨g, 12, [("PIX".toList, List.replicate 12 7),
    ("energy1".toList, (List.range 12).map fun i : Nat => (i : ℝ))], [100]⟩ = .ok m ∧ lookup m 100 14 = .ok 2 := by
  obtain ⟨m, h1, _, h3⟩ := C121_read (sky := twelve) twelve_good ⟨g, 12, [("PIX".toList, List.replicate 12 7),
    ("energy1".toList, (List.range 12).map fun i : Nat => (i : ℝ))], [100]⟩
    [("energy1".toList, (List.range 12).map fun i : Nat => (i : ℝ))] (by
      rw [List.filter_cons_of_neg (by decide), List.filter_cons_of_pos (by decide)]; rfl)
    ⟨rfl, by simp, by simp⟩ (by simp)
  obtain ⟨v, h4, h5⟩ := h3 0 100 _ _ 14 rfl rfl
  refine ⟨m, h1, ?_⟩
  rw [h5]
  simp [twelve] at h4
  rw [← h4]

end Verif.HpxExp
