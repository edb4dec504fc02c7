import Verif.ExpCube.Lemmas
/-
C117: gtexpcube2 computes the exposure for the geometry and the energies asked for.
-/
set_option linter.unusedSectionVars false
set_option linter.unusedSimpArgs false
set_option linter.unusedVariables false

namespace Verif.ExpCube
open Verif.Vec Spec

/-- Energies, from the parameters or the bins of the counts map. -/
theorem generate_ok {d : Disk} {p : Pars} {rows : List Row} (h : AskedGood d p rows) :
    ∃ es, Asked d p rows es ∧ Grid es ∧ ∀ b, generateEnergies d p
      (if haveEnergies p = true then none else some rows) b = expandInt es b := by
  by_cases ho : Own p
  · obtain ⟨es, h1, h2, h3⟩ := userEdges_ok (h.1 ho)
    refine ⟨es, ⟨fun _ => h2, fun hn => absurd ho hn⟩, h3, fun b => ?_⟩
    rw [if_pos ((own_iff p).2 ho)]
    unfold generateEnergies
    simp only
    rw [h1]; rfl
  · have hg := h.2 ho
    obtain ⟨es, h1, h2, _⟩ := edges_ok rows hg.some hg.joined
    refine ⟨es, ⟨fun hn => absurd hn ho, fun _ => h2⟩, grid_of_bounds hg h2, fun b => ?_⟩
    rw [if_neg (fun e => ho ((own_iff p).1 e))]
    unfold generateEnergies
    simp only
    rw [h1]; rfl

/-- C117 (partial).  With a counts map in a conventional projection, and a number of extra bins
that is not negative: an exposure map is computed for the energies asked for, or else those of the
counts map, with the extra bins, or the means of the bins if these were chosen; and for the geometry
asked for, or else that of the counts map, if the energies are those of the counts map, too, or if the
counts map is regular.  Missing: see `C117_geometry_violates`, `C117_negative_violates`. -/
theorem C117_wcs_partial {d : Disk} {p : Pars} {f : String} {s : Sky} {rows : List Row}
    (hf : p.cmap = .file f) (hd : d.cmap f = some (.wcs s rows)) (he : 0 ≤ p.edisp)
    (hg : AskedGood d p rows) :
    ∃ es s' out, run d p = .ok (.wcs s' out) ∧ Asked d p rows es ∧
      Energies es p.edisp.toNat p.center out ∧
      (¬ NoSky p → OwnSky p s') ∧ (NoSky p → ¬ Own p ∨ Regular s → s' = s) := by
  obtain ⟨es, h1, h2, h3⟩ := generate_ok hg
  obtain ⟨w, out, e1, e2, e3⟩ := energies_ok h2 p.edisp he p.center
  have hrun : run d p = runWcs d p (some (s, rows)) p.edisp := by
    unfold run
    rw [hf]
    simp only
    rw [hd, max_eq_left he]
  rw [hrun]
  unfold runWcs
  by_cases hh : (haveEnergies p || haveSky p) = true
  · rw [if_pos hh]
    simp only [Option.map_some]
    have hgen := h3 p.edisp
    rw [hgen, e1]
    simp only [Res.bind_ok]
    rw [e2]
    simp only [Res.bind_ok]
    by_cases hs : NoSky p
    · rw [skyFor_none hs]
      refine ⟨es, _, out, rfl, h1, e3, fun h => absurd hs h, fun _ hor => ?_⟩
      rcases hor with ho | hr
      · rw [Bool.or_eq_true] at hh
        rcases hh with hh | hh
        · exact absurd ((own_iff p).1 hh) ho
        · exact absurd hs ((sky_iff p).1 hh)
      · exact (skyOf_iff s).2 hr
    · obtain ⟨s', q1, q2⟩ := skyFor_own hs (some s)
      rw [q1]
      exact ⟨es, s', out, rfl, h1, e3, fun _ => q2, fun h => absurd h hs⟩
  · rw [if_neg hh]
    simp only
    rw [Bool.or_eq_true, not_or, own_iff, sky_iff, not_not] at hh
    have hb := h1.2 hh.1
    have hgen := h3 p.edisp
    rw [if_neg (fun e => hh.1 ((own_iff p).1 e))] at hgen
    obtain ⟨es', g1, _⟩ := edges_ok rows (hg.2 hh.1).some (hg.2 hh.1).joined
    unfold generateEnergies at hgen
    simp only at hgen
    rw [g1] at hgen ⊢
    simp only [Res.bind_ok] at hgen ⊢
    rw [hgen, e1]
    simp only [Res.bind_ok]
    rw [e2]
    exact ⟨es, s, out, rfl, h1, e3, fun h => absurd hh.2 h, fun _ _ => rfl⟩

/-- C117.  Without a counts map the geometry and the energies have to be given, and are those
used; extra bins may be asked for. -/
theorem C117_none {d : Disk} {p : Pars} (hc : p.cmap = .noMap) (hs : ¬ NoSky p) (hg : OwnGood d p) :
    ∃ es s out, run d p = .ok (.wcs s out) ∧ OwnEnergies d p es ∧
      Energies es p.edisp.toNat p.center out ∧ OwnSky p s := by
  have ho : Own p := by
    unfold OwnGood at hg; unfold Own
    cases hp : p.ebin with
    | file f => rw [hp] at hg; cases f with
      | none => exact hg.elim
      | some f => trivial
    | log a b n =>
      rw [hp] at hg
      cases a with
      | none => exact hg.elim
      | some a => cases b with
        | none => exact hg.elim
        | some b => cases n with
          | none => exact hg.elim
          | some n => trivial
  obtain ⟨es, h1, h2, h3⟩ := userEdges_ok hg
  obtain ⟨w, out, e1, e2, e3⟩ := energies_ok h3 (max p.edisp 0) (le_max_right _ _) p.center
  obtain ⟨s, q1, q2⟩ := skyFor_own hs none
  refine ⟨es, s, out, ?_, h2, ?_, q2⟩
  · unfold run
    rw [hc]
    simp only
    unfold runWcs
    rw [if_pos (by rw [(own_iff p).2 ho]; rfl), if_pos ((own_iff p).2 ho)]
    unfold generateEnergies
    simp only
    rw [h1]
    simp only [Res.bind_ok]
    rw [e1]
    simp only [Res.bind_ok]
    rw [e2]
    simp only [Res.bind_ok, Option.map_none]
    rw [q1]; rfl
  · have : (max p.edisp 0).toNat = p.edisp.toNat := by omega
    rw [← this]; exact e3

/-- C117.  Without a counts map and without a complete geometry the tool stops with an error, if the
energies are good; without energies it stops with an error as well. -/
theorem C117_missing {d : Disk} {p : Pars} (hc : p.cmap = .noMap) :
    (NoSky p → OwnGood d p → run d p = .throws) ∧ (¬ Own p → run d p = .throws) := by
  constructor
  · intro hs hg
    obtain ⟨es, h1, h2, h3⟩ := userEdges_ok hg
    obtain ⟨w, out, e1, e2, e3⟩ := energies_ok h3 (max p.edisp 0) (le_max_right _ _) p.center
    unfold run
    rw [hc]
    simp only
    unfold runWcs
    by_cases hh : (haveEnergies p || haveSky p) = true
    · rw [if_pos hh]
      unfold generateEnergies
      simp only [Option.map_none, ite_self]
      rw [h1]
      simp only [Res.bind_ok]
      rw [e1]
      simp only [Res.bind_ok]
      rw [e2]
      simp only [Res.bind_ok, Option.map_none]
      rw [skyFor_missing hs]; rfl
    · rw [if_neg hh]
  · intro ho
    unfold run
    rw [hc]
    simp only
    unfold runWcs
    by_cases hh : (haveEnergies p || haveSky p) = true
    · rw [if_pos hh]
      unfold generateEnergies
      simp only [Option.map_none, ite_self]
      have : userEdges d p = .throws := by
        unfold userEdges
        unfold Own at ho
        cases hp : p.ebin with
        | file f =>
          rw [hp] at ho
          cases f with
          | none => rfl
          | some f => exact absurd trivial ho
        | log a b n =>
          rw [hp] at ho
          cases a with
          | none => rfl
          | some a => cases b with
            | none => rfl
            | some b => cases n with
              | none => rfl
              | some n => exact absurd trivial ho
      rw [this]
      rfl
    · rw [if_neg hh]

/-- C117.  If the counts map cannot be read, or its projection is not known, the tool stops with an
error, whatever else is given. -/
theorem C117_unreadable {d : Disk} {p : Pars} {f : String} (hf : p.cmap = .file f)
    (hd : d.cmap f = none ∨ d.cmap f = some .other) : run d p = .throws := by
  unfold run
  rw [hf]
  simp only
  rcases hd with hd | hd <;> rw [hd]

/-- C117.  If the file of energy bins cannot be read, the tool stops with an error, whatever else is
given. -/
theorem C117_unreadable_bins {d : Disk} {p : Pars} {f : String} (hf : p.ebin = .file (some f))
    (hd : d.bins f = none) : run d p = .throws := by
  have ho : haveEnergies p = true := by unfold haveEnergies; rw [hf]; rfl
  have hu : ∀ b, generateEnergies d p none b = .throws := by
    intro b
    unfold generateEnergies userEdges
    rw [hf]
    simp only
    rw [hd]; rfl
  have hw : ∀ c e, runWcs d p c e = .throws := by
    intro c e
    unfold runWcs
    rw [if_pos (by rw [ho]; rfl), if_pos ho, hu]; rfl
  have hx : ∀ c e, runHpx d p c e = .throws := by
    intro c e
    unfold runHpx
    rw [if_pos (by rw [ho]; rfl), if_pos ho, hu]; rfl
  unfold run
  split
  · exact hw _ _
  · exact hx _ _
  · split
    · rfl
    · exact hw _ _
    · exact hx _ _
    · rfl

/-- C117.  The same for a HEALPix map without a counts map: the order has to be given. -/
theorem C117_none_hpx {d : Disk} {p : Pars} (hc : p.cmap = .noHpx) (hg : OwnGood d p) :
    (∀ o, p.order = some o → ∃ es out, run d p = .ok (.hpx ⟨2 ^ o, p.ring, p.gal⟩ out) ∧
      OwnEnergies d p es ∧ Energies es p.edisp.toNat p.center out) ∧
      (p.order = none → run d p = .throws) := by
  obtain ⟨es, h1, h2, h3⟩ := userEdges_ok hg
  obtain ⟨w, out, e1, e2, e3⟩ := energies_ok h3 (max p.edisp 0) (le_max_right _ _) p.center
  have hto : (max p.edisp 0).toNat = p.edisp.toNat := by omega
  rw [hto] at e3
  constructor
  · intro o ho
    refine ⟨es, out, ?_, h2, e3⟩
    unfold run
    rw [hc]
    simp only
    unfold runHpx
    rw [if_pos (by unfold haveHpx; rw [ho]; simp)]
    unfold generateEnergies
    simp only [Option.map_none, ite_self]
    rw [h1]
    simp only [Res.bind_ok]
    rw [e1]
    simp only [Res.bind_ok]
    rw [e2]
    simp only [Res.bind_ok]
    unfold hpxFor
    rw [ho]; rfl
  · intro ho
    unfold run
    rw [hc]
    simp only
    unfold runHpx
    by_cases hh : (haveEnergies p || haveHpx p) = true
    · rw [if_pos hh]
      unfold generateEnergies
      simp only [Option.map_none, ite_self]
      rw [h1]
      simp only [Res.bind_ok]
      rw [e1]
      simp only [Res.bind_ok]
      rw [e2]
      simp only [Res.bind_ok]
      unfold hpxFor
      rw [ho]; rfl
    · rw [if_neg hh]

/-- C117 (violation).  If only the energies are given, the geometry is to be that of the counts map,
and is exactly if the counts map is regular: for rectangular pixels, or if the reference pixel is not
in the middle, the exposure map is another one. -/
theorem C117_geometry_violates {d : Disk} {p : Pars} {f : String} {s : Sky} {rows : List Row}
    (hf : p.cmap = .file f) (hd : d.cmap f = some (.wcs s rows)) (he : 0 ≤ p.edisp)
    (hn : NoSky p) (ho : Own p) (hg : OwnGood d p) (hr : ¬ Regular s) :
    ∃ s' out, run d p = .ok (.wcs s' out) ∧ s' ≠ s := by
  obtain ⟨es, h1, h2, h3⟩ := userEdges_ok hg
  obtain ⟨w, out, e1, e2, e3⟩ := energies_ok h3 p.edisp he p.center
  refine ⟨_, out, ?_, fun h => hr ((skyOf_iff s).1 h)⟩
  unfold run
  rw [hf]
  simp only
  rw [hd, max_eq_left he]
  simp only
  unfold runWcs
  rw [if_pos (by rw [(own_iff p).2 ho]; rfl), if_pos ((own_iff p).2 ho)]
  unfold generateEnergies
  simp only
  rw [h1]
  simp only [Res.bind_ok]
  rw [e1]
  simp only [Res.bind_ok]
  rw [e2]
  simp only [Res.bind_ok, Option.map_some]
  rw [skyFor_none hn]; rfl

/-- C117 (violation).  A negative number of extra bins, which means none if energies or geometry are
given, is undefined behaviour if both are those of the counts map. -/
theorem C117_negative_violates {d : Disk} {p : Pars} {f : String} {s : Sky} {rows : List Row}
    (hf : p.cmap = .file f) (hd : d.cmap f = some (.wcs s rows)) (he : p.edisp < 0)
    (hg : Good rows) (ho : ¬ Own p) :
    (NoSky p → run d p = .ub) ∧
      (¬ NoSky p → ∃ es s' out, run d p = .ok (.wcs s' out) ∧ Bounds rows es ∧
        Energies es 0 p.center out ∧ OwnSky p s') := by
  have hm : max p.edisp 0 = 0 := by omega
  have hrun : run d p = runWcs d p (some (s, rows)) 0 := by
    unfold run
    rw [hf]
    simp only
    rw [hd, hm]
  obtain ⟨es, h1, h2, _⟩ := edges_ok rows hg.some hg.joined
  have hgr := grid_of_bounds hg h2
  have hne : ¬ haveEnergies p = true := fun e => ho ((own_iff p).1 e)
  rw [hrun]
  unfold runWcs
  constructor
  · intro hs
    rw [if_neg (by rw [Bool.or_eq_true, sky_iff]; exact fun h => h.elim hne (fun h => h hs))]
    simp only
    rw [h1]
    simp only [Res.bind_ok]
    have : expandInt es p.edisp = .ub := by
      unfold expandInt
      have := hgr.two
      rw [if_neg (by omega), if_pos he]
    rw [this]; rfl
  · intro hs
    obtain ⟨w, out, e1, e2, e3⟩ := energies_ok hgr 0 le_rfl p.center
    obtain ⟨s', q1, q2⟩ := skyFor_own hs (some s)
    refine ⟨es, s', out, ?_, h2, e3, q2⟩
    rw [if_pos (by rw [Bool.or_eq_true, sky_iff]; exact Or.inr hs), if_neg hne]
    unfold generateEnergies
    simp only [Option.map_some]
    rw [h1]
    simp only [Res.bind_ok]
    rw [e1]
    simp only [Res.bind_ok]
    rw [e2]
    simp only [Res.bind_ok]
    rw [q1]; rfl

/-- C117 (partial).  With a HEALPix counts map: the energies asked for, or else those of the counts
map, and the order, scheme and coordinates asked for, or else those of the counts map, if the energies
are those of the counts map, too, or if its number of divisions is a power of two. -/
theorem C117_hpx_partial {d : Disk} {p : Pars} {f : String} {g : Hpx} {rows : List Row}
    (hf : p.cmap = .file f) (hd : d.cmap f = some (.hpx g rows)) (he : 0 ≤ p.edisp)
    (hg : AskedGood d p rows) (hn : p.order = none → Own p → ∃ o, g.nside = 2 ^ o) :
    ∃ es g' out, run d p = .ok (.hpx g' out) ∧ Asked d p rows es ∧
      Energies es p.edisp.toNat p.center out ∧
      (∀ o, p.order = some o → g' = ⟨2 ^ o, p.ring, p.gal⟩) ∧ (p.order = none → g' = g) := by
  obtain ⟨es, h1, h2, h3⟩ := generate_ok hg
  obtain ⟨w, out, e1, e2, e3⟩ := energies_ok h2 p.edisp he p.center
  have hrun : run d p = runHpx d p (some (g, rows)) p.edisp := by
    unfold run
    rw [hf]
    simp only
    rw [hd, max_eq_left he]
  rw [hrun]
  unfold runHpx
  by_cases hh : (haveEnergies p || haveHpx p) = true
  · rw [if_pos hh]
    simp only [Option.map_some]
    have hgen := h3 p.edisp
    rw [hgen, e1]
    simp only [Res.bind_ok]
    rw [e2]
    simp only [Res.bind_ok]
    unfold hpxFor
    cases ho : p.order with
    | some o =>
      exact ⟨es, ⟨2 ^ o, p.ring, p.gal⟩, out, rfl, h1, e3, fun o' h => by cases h; rfl,
        fun h => by cases h⟩
    | none =>
      have how : Own p := by
        rw [Bool.or_eq_true] at hh
        rcases hh with hh | hh
        · exact (own_iff p).1 hh
        · unfold haveHpx at hh; rw [ho] at hh; cases hh
      obtain ⟨o, hno⟩ := hn ho how
      have hor : orderOf g.nside = some o := by
        unfold orderOf
        rw [hno, Nat.log2_two_pow, if_pos rfl]
      simp only
      rw [hor]
      refine ⟨es, ⟨2 ^ o, g.ring, g.gal⟩, out, rfl, h1, e3, fun o' h => by (cases h), fun _ => ?_⟩
      rw [← hno]
  · rw [if_neg hh]
    simp only
    rw [Bool.or_eq_true, not_or, own_iff] at hh
    have ho : p.order = none := by
      have := hh.2
      unfold haveHpx at this
      cases h : p.order with
      | none => rfl
      | some o => rw [h] at this; exact absurd rfl this
    have hgen := h3 p.edisp
    rw [if_neg (fun e => hh.1 ((own_iff p).1 e))] at hgen
    obtain ⟨es', g1, _⟩ := edges_ok rows (hg.2 hh.1).some (hg.2 hh.1).joined
    unfold generateEnergies at hgen
    simp only at hgen
    rw [g1] at hgen ⊢
    simp only [Res.bind_ok] at hgen ⊢
    rw [hgen, e1]
    simp only [Res.bind_ok]
    rw [e2]
    exact ⟨es, g, out, rfl, h1, e3, (fun o' h => by rw [ho] at h; cases h), fun _ => rfl⟩

/-- C117 (violation).  If only the energies are given and the number of divisions of the HEALPix
counts map is not a power of two, the tool fails, although such a map is accepted together with its
own energies. -/
theorem C117_order_violates {d : Disk} {p : Pars} {f : String} {g : Hpx} {rows : List Row}
    (hf : p.cmap = .file f) (hd : d.cmap f = some (.hpx g rows)) (he : 0 ≤ p.edisp)
    (hg : OwnGood d p) (ho : Own p) (hn : p.order = none) (h2 : ∀ o, g.nside ≠ 2 ^ o) :
    run d p = .throws := by
  obtain ⟨es, h1, _, h3⟩ := userEdges_ok hg
  obtain ⟨w, out, e1, e2, e3⟩ := energies_ok h3 p.edisp he p.center
  unfold run
  rw [hf]
  simp only
  rw [hd, max_eq_left he]
  simp only
  unfold runHpx
  rw [if_pos (by rw [(own_iff p).2 ho]; rfl), if_pos ((own_iff p).2 ho)]
  unfold generateEnergies
  simp only
  rw [h1]
  simp only [Res.bind_ok]
  rw [e1]
  simp only [Res.bind_ok]
  rw [e2]
  simp only [Res.bind_ok, Option.map_some]
  unfold hpxFor
  rw [hn]
  simp only
  have : orderOf g.nside = none := by
    unfold orderOf
    rw [if_neg fun h => h2 _ h.symm]
  rw [this]
  rfl

/-- C117 (violation).  Bins with a gap between them: the energies of the map are not the bounds of
the bins, one of its bins bridges the gap. -/
theorem C117_gap_violates {d : Disk} {p : Pars} {f : String} {s : Sky} (a b : Row)
    (hf : p.cmap = .file f) (hd : d.cmap f = some (.wcs s [a, b])) (he : p.edisp = 0)
    (hs : NoSky p) (ho : ¬ Own p) (hc : p.center = false)
    (h1 : 0 < a.emin) (h2 : a.emin < a.emax) (h3 : a.emax < b.emin) (h4 : b.emin < b.emax) :
    run d p = .ok (.wcs s [a.emin / 1000, b.emin / 1000, b.emax / 1000]) ∧
      ¬ Bounds [a, b] [a.emin / 1000, b.emin / 1000, b.emax / 1000] := by
  constructor
  · have hne : ¬ haveEnergies p = true := fun e => ho ((own_iff p).1 e)
    unfold run
    rw [hf]
    simp only
    rw [hd]
    simp only
    unfold runWcs
    rw [if_neg (by rw [Bool.or_eq_true, sky_iff]; exact fun h => h.elim hne (fun h => h hs))]
    simp only
    have hed : edges [a, b] = .ok [a.emin / 1000, b.emin / 1000, b.emax / 1000] := by simp [edges]
    rw [hed, he, hc]
    simp only [Res.bind_ok]
    have hg : Grid [a.emin / 1000, b.emin / 1000, b.emax / 1000] := by
      have e1 : a.emin / 1000 < b.emin / 1000 := by linarith
      have e2 : b.emin / 1000 < b.emax / 1000 := by linarith
      have e3 : 0 < a.emin / 1000 := by linarith
      refine ⟨by simp, ?_, ?_⟩
      · intro e he
        simp only [List.mem_cons, List.not_mem_nil, or_false] at he
        rcases he with rfl | rfl | rfl <;> linarith
      · simp only [List.pairwise_cons, List.mem_cons, List.not_mem_nil, or_false, forall_eq_or_imp,
          forall_eq, List.Pairwise.nil, and_true, false_imp_iff, implies_true]
        exact ⟨⟨e1, lt_trans e1 e2⟩, e2⟩
    obtain ⟨w, out, w1, w2, w3, w4, w5⟩ := energies_ok hg 0 le_rfl false
    rw [w1]
    simp only [Res.bind_ok]
    rw [w2]
    simp only [Res.bind_ok]
    simp only [Bool.false_eq_true, if_false] at w5
    subst w5
    have hn := w4.number
    have hm := w4.middle
    simp only [Int.toNat_zero, Nat.mul_zero, Nat.add_zero, List.drop_zero] at hn hm
    rw [← hn, List.take_length] at hm
    rw [hm]
  · rintro ⟨_, h⟩
    simp only [List.tail_cons, List.zip_cons_cons, List.map_cons, List.cons.injEq, Prod.mk.injEq,
      true_and] at h
    have := h.1
    linarith

/-- C117 (violation).  A table without bins is undefined behaviour, not an error; and so are zero
logarithmic bins. -/
theorem C117_empty_violates {d : Disk} {p : Pars} (hc : p.cmap = .noMap) :
    (∀ f, p.ebin = .file (some f) → d.bins f = some [] → run d p = .ub) ∧
      (∀ a b, p.ebin = .log (some a) (some b) (some 0) → run d p = .ub) := by
  have key : Own p → userEdges d p = .ub → run d p = .ub := by
    intro ho hu
    unfold run
    rw [hc]
    simp only
    unfold runWcs
    rw [if_pos (by rw [(own_iff p).2 ho]; rfl), if_pos ((own_iff p).2 ho)]
    unfold generateEnergies
    simp only
    rw [hu]; rfl
  constructor
  · intro f hf hb
    refine key ?_ ?_
    · unfold Own; rw [hf]; trivial
    · unfold userEdges; rw [hf]; simp only; rw [hb]; rfl
  · intro a b hf
    refine key ?_ ?_
    · unfold Own; rw [hf]; trivial
    · unfold userEdges; rw [hf]; simp [logEdges]

/-! ### Non-vacuity -/

/-- A regular counts map, and one with rectangular pixels. -/
noncomputable def exSky (dy : ℝ) : Sky := ⟨"AIT", (50.5, 50.5), (83, 22), (-0.2, dy), 0, false, 100, 100⟩

/-- Two bins. -/
noncomputable def exRows : List Row := [⟨100000, 200000⟩, ⟨200000, 400000⟩]

noncomputable def exDisk (dy : ℝ) (n : Nat) : Disk where
  cmap := fun f => if f = "c.fits" then some (.wcs (exSky dy) exRows)
    else if f = "h.fits" then some (.hpx ⟨n, true, true⟩ exRows) else none
  bins := fun _ => none

/-- Energies asked for, geometry of the counts map. -/
noncomputable def exPars (f : String) (e : Int) : Pars :=
  ⟨.file f, none, none, none, none, none, 0, "AIT", false, none, true,
    .log (some 100) (some 1000) (some 3), e, true⟩

theorem exOwn (f : String) (e : Int) (dy : ℝ) (n : Nat) : OwnGood (exDisk dy n) (exPars f e) := by
  unfold OwnGood exPars
  norm_num

theorem exRegular : Regular (exSky 0.2) := by
  unfold Regular exSky
  norm_num

theorem exGood : Good exRows :=
  ⟨by simp [exRows], by simp [exRows], by intro r hr; simp [exRows] at hr; rcases hr with rfl | rfl <;> norm_num⟩

example : ∃ es s' out, run (exDisk 0.2 1) (exPars "c.fits" 2) = .ok (.wcs s' out) ∧
    LogGrid 100 1000 3 es ∧ Energies es 2 true out ∧ s' = exSky 0.2 := by
  obtain ⟨es, s', out, h1, h2, h3, _, h5⟩ := C117_wcs_partial (d := exDisk 0.2 1)
    (p := exPars "c.fits" 2) (f := "c.fits") (s := exSky 0.2) (rows := exRows) rfl
    (by simp [exDisk]) (by simp [exPars])
    ⟨fun _ => exOwn _ _ _ _, fun h => absurd (by unfold Own exPars; trivial) h⟩
  exact ⟨es, s', out, h1, h2.1 (by unfold Own exPars; trivial), h3, h5 (Or.inl rfl) (Or.inr exRegular)⟩

example : ∃ s' out, run (exDisk 0.1 1) (exPars "c.fits" 0) = .ok (.wcs s' out) ∧ s' ≠ exSky 0.1 :=
  C117_geometry_violates (d := exDisk 0.1 1) (p := exPars "c.fits" 0) (f := "c.fits")
    (s := exSky 0.1) (rows := exRows) rfl (by simp [exDisk]) (by simp [exPars]) (Or.inl rfl)
    (by unfold Own exPars; trivial) (exOwn _ _ _ _) (by
      unfold Regular exSky; norm_num)

example : run (exDisk 0.1 3) (exPars "h.fits" 0) = .throws :=
  C117_order_violates (d := exDisk 0.1 3) (p := exPars "h.fits" 0) (f := "h.fits")
    (g := ⟨3, true, true⟩) (rows := exRows) rfl (by simp [exDisk]) (by simp [exPars])
    (exOwn _ _ _ _) (by unfold Own exPars; trivial) rfl (by
      intro o h
      cases o with
      | zero => simp at h
      | succ o => rw [pow_succ] at h; simp only at h; omega)

example : run (exDisk 0.1 3) { exPars "c.fits" (-1) with ebin := .file none } = .ub :=
  (C117_negative_violates (d := exDisk 0.1 3) (p := { exPars "c.fits" (-1) with ebin := .file none })
    (f := "c.fits") (s := exSky 0.1) (rows := exRows) rfl (by simp [exDisk]) (by simp [exPars])
    exGood (by simp [Own])).1 (Or.inl rfl)

example : ∃ es out, run (exDisk 0.1 3) { exPars "c.fits" 1 with cmap := .noHpx, order := some 4 } =
    .ok (.hpx ⟨2 ^ 4, true, false⟩ out) ∧ LogGrid 100 1000 3 es ∧ Energies es 1 true out := by
  obtain ⟨es, out, h1, h2, h3⟩ := (C117_none_hpx (d := exDisk 0.1 3)
    (p := { exPars "c.fits" 1 with cmap := .noHpx, order := some 4 }) rfl
    (by unfold OwnGood exPars; norm_num)).1 4 rfl
  exact ⟨es, out, h1, h2, h3⟩

example : run (exDisk 0.1 3) (exPars "missing.fits" 0) = .throws :=
  C117_unreadable rfl (Or.inl (by simp [exDisk]))

end Verif.ExpCube
