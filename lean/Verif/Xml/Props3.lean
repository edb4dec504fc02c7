import Verif.Xml.Props
import Verif.Xml.Reread
import Verif.Xml.Spec2
/-
C75: reading a file again gives the model the parameters and positions of the file.
-/
set_option linter.unusedSectionVars false
set_option linter.unusedSimpArgs false
set_option linter.unusedVariables false
namespace Verif.Xml

variable {K : Type} [Field K] [LinearOrder K]

/-! ### Elements that were written -/

theorem par_name? (E : Env K) (p : Par K) : attr? (parNode E p) "name" = some p.name := by
  simp [attr?, parNode, Node.attrs]

theorem par_free? (E : Env K) (p : Par K) : attr? (parNode E p) "free" = some (flagText p.free) := by
  simp [attr?, parNode, Node.attrs, List.find?]

theorem parse_par (E : Env K) (p : Par K) (h : Spec.ParOK E p) :
    parsePar E (parNode E p) = some (Spec.forget p) := by
  unfold parsePar
  rw [par_name?, par_value, par_scale, par_min, par_max, par_free?]
  simp only [Option.bind_some, h.1.1, h.2.1.1, h.2.2.1.1, h.2.2.2.1, Option.getD_some]
  obtain ⟨n, v, s, lo, hi, f, e⟩ := p
  cases f <;> rfl

theorem parse_map (E : Env K) : ∀ ps : List (Par K), (∀ p ∈ ps, Spec.ParOK E p) →
    (ps.map (parNode E)).filterMap (parsePar E) = ps.map Spec.forget
  | [], _ => rfl
  | p :: ps, h => by
    rw [List.map_cons, List.filterMap_cons, parse_par E p (h p (by simp)),
      parse_map E ps (fun q hq => h q (by simp [hq]))]
    rfl

theorem parse_spec (E : Env K) (s : Spectrum K) (h : ∀ p ∈ s.pars, Spec.ParOK E p) :
    parsePars E (spectrumNode E s) = s.pars.map Spec.forget := by
  have hkids : kidsOf (spectrumNode E s) "parameter" = s.pars.map (parNode E) := kids_pars _ _ _ _
  rw [parsePars, hkids, parse_map E s.pars h]

theorem setAll_same (new old : List (Par K)) (h : old.map (·.name) = new.map (·.name)) :
    setAll (new.map Spec.forget) old = .ok (new.map Spec.forget) := by
  have hl : old.length = new.length := by simpa using congrArg List.length h
  unfold setAll
  by_cases c : new.map Spec.forget = []
  · rw [if_pos c, c]
    have : new = [] := by simpa using c
    subst this
    have : old = [] := by simpa using hl
    rw [this]
  · rw [if_neg c, if_pos (by simp [hl])]

theorem spec_withPars (s : Src K) (ps : List (Par K)) :
    (withPars s ps).spec = { s.spec with pars := ps } := by cases s <;> rfl

theorem name_withPars (s : Src K) (ps : List (Par K)) : (withPars s ps).name = s.name := by
  cases s <;> rfl

theorem rereadPos_write (E : Env K) (ra dec : K) (hra : Spec.Survives E ra)
    (hdec : Spec.Survives E dec) (a : K × K) :
    rereadPos E ((posPars ra dec).map (parNode E)) a = (ra, dec) := by
  simp only [posPars, List.map_cons, List.map_nil, rereadPos, par_name?, par_value,
    Option.bind_some, hra.1, hdec.1]

theorem shape_pars {s new : Src K} (h : Spec.SameShape s new) :
    s.spec.pars.map (·.name) = new.spec.pars.map (·.name) := by
  cases s <;> cases new <;> simp only [Spec.SameShape] at h
  · exact h
  · exact h.1

theorem reread_write (E : Env K) (sep : K × K → K × K → K) (tol : K) (s new : Src K)
    (hn : Spec.Simple E new) (hs : Spec.SameShape s new) :
    rereadSrc E sep tol (srcNode E new)
      ((attr? (srcNode E new) "type").getD "") s = .ok (Spec.refreshed sep tol s new) := by
  cases new with
  | composite n sp f ms => exact hn.elim
  | point name' sp' f' ra' dec' =>
    cases s with
    | composite n sp f ms => exact hs.elim
    | diffuse n sp f t ps fi mi => exact hs.elim
    | point name sp f ra dec =>
      simp only [Spec.Simple] at hn
      simp only [Spec.SameShape] at hs
      rw [srcNode]
      have ht : (attr? (Node.mk "source" [("name", name'), ("type", "PointSource")]
        [spectrumNode E sp', .mk "spatialModel" [("type", "SkyDirFunction")]
          ((posPars ra' dec').map (parNode E))]) "type").getD "" = "PointSource" := by
        simp [attr?, Node.attrs, List.find?]
      rw [ht, rereadSrc, rereadSpec, kidsOf_first _ _ _ _ "spectrum" rfl (by simp [Node.tag])]
      simp only [parse_spec E sp' hn.1]
      rw [show (Src.point name sp f ra dec).spec.pars = sp.pars from rfl, setAll_same _ _ hs]
      simp only [Res.bind_ok, Res.pure_eq]
      rw [rereadType, if_pos rfl, rereadPoint,
        kidsOf_second _ _ _ _ "spatialModel" (by simp [spectrumNode, Node.tag]) rfl]
      simp only [withPars, kids_pars, rereadPos_write E ra' dec' hn.2.1 hn.2.2]
      rw [Spec.refreshed]
      by_cases c : tol < sep (ra', dec') (ra, dec)
      · rw [if_pos c, if_pos c]; rfl
      · rw [if_neg c, if_neg c]; rfl
  | diffuse name' sp' f' t' ps' fi' mi' =>
    cases s with
    | composite n sp f ms => exact hs.elim
    | point n sp f ra dec => exact hs.elim
    | diffuse name sp f t ps fi mi =>
      simp only [Spec.Simple] at hn
      simp only [Spec.SameShape] at hs
      rw [srcNode]
      generalize hst : (Node.mk "spatialModel"
        ([("type", t')] ++ (if t' ∈ mapTypes then [("file", fi')] else [])
          ++ (if mi' then [("map_based_integral", "true")] else []))
        (ps'.map (parNode E))) = st
      have hstag : st.tag = "spatialModel" := by rw [← hst]; rfl
      have hk : parsePars E st = ps'.map Spec.forget := by
        rw [← hst, parsePars, kids_pars, parse_map E ps' hn.2]
      have ht : (attr? (Node.mk "source" [("name", name'), ("type", "DiffuseSource")]
        [spectrumNode E sp', st]) "type").getD "" = "DiffuseSource" := by
        simp [attr?, Node.attrs, List.find?]
      rw [ht, rereadSrc, rereadSpec,
        kidsOf_first _ _ _ _ "spectrum" rfl (by rw [hstag]; decide)]
      simp only [parse_spec E sp' hn.1]
      rw [show (Src.diffuse name sp f t ps fi mi).spec.pars = sp.pars from rfl, setAll_same _ _ hs.1]
      simp only [Res.bind_ok, Res.pure_eq]
      rw [rereadType, if_neg (by decide), if_pos rfl, rereadDiffuse,
        kidsOf_second _ _ _ _ "spatialModel" (by simp [spectrumNode, Node.tag]) hstag]
      simp only [hk, withPars]
      rw [Spec.refreshed]
      by_cases c : (ps'.map Spec.forget).isEmpty = true
      · rw [if_pos c]
        have h0 : ps' = [] := by simpa using c
        subst h0
        have h1 : ps = [] := by simpa using hs.2
        subst h1
        rfl
      · rw [if_neg c, setAll_same _ _ hs.2]
        rfl

/-! ### Whole files -/

theorem src_name? (E : Env K) (s : Src K) : attr? (srcNode E s) "name" = some s.name := by
  cases s <;> (rw [srcNode]; simp [attr?, Node.attrs, Src.name])

theorem src_type? (E : Env K) (s : Src K) :
    ∃ t, attr? (srcNode E s) "type" = some t := by
  cases s with
  | point => exact ⟨"PointSource", by rw [srcNode]; simp [attr?, Node.attrs, List.find?]⟩
  | diffuse => exact ⟨"DiffuseSource", by rw [srcNode]; simp [attr?, Node.attrs, List.find?]⟩
  | composite => exact ⟨"CompositeSource", by rw [srcNode]; simp [attr?, Node.attrs, List.find?]⟩

theorem kids_lib (E : Env K) (funcLib title : String) (ss : List (Src K)) :
    kidsOf (libNode E funcLib title ss) "source" = srcNodes E ss := by
  rw [libNode]
  apply kidsOf_all
  induction ss with
  | nil => intro n hn; simp [srcNodes] at hn
  | cons s ss ih =>
    intro n hn
    rw [srcNodes, List.mem_cons] at hn
    rcases hn with rfl | hn
    · exact srcNode_tag E s
    · exact ih n hn

theorem rereadAll_write (E : Env K) (sep : K × K → K × K → K) (tol : K) :
    ∀ (ss : List (Src K)) (m : SrcMap K), StdMap.Sorted m → (ss.map Src.name).Nodup →
    (∀ s ∈ ss, Spec.Simple E s) →
    (∀ new ∈ ss, ∀ s, StdMap.find m new.name = some s → Spec.SameShape s new) →
    ∃ m', rereadAll E sep tol (srcNodes E ss) m = .ok m' ∧ StdMap.Sorted m' ∧
      (∀ new ∈ ss, ∀ s, StdMap.find m new.name = some s →
        StdMap.find m' new.name = some (Spec.refreshed sep tol s new)) ∧
      (∀ k, k ∉ ss.map Src.name → StdMap.find m' k = StdMap.find m k) ∧
      (∀ k, StdMap.find m k = none → StdMap.find m' k = none) := by
  intro ss
  induction ss with
  | nil =>
    intro m hm _ _ _
    exact ⟨m, by rw [srcNodes, rereadAll], hm, by simp, fun _ _ => rfl, fun _ h => h⟩
  | cons new ss ih =>
    intro m hm hnd hsim hsh
    rw [List.map_cons, List.nodup_cons] at hnd
    obtain ⟨t, ht⟩ := src_type? E new
    rw [srcNodes, rereadAll, src_name?, ht]
    simp only []
    cases hf : StdMap.find m new.name with
    | none =>
      obtain ⟨m', h1, h2, h3, h4, h5⟩ := ih m hm hnd.2 (fun s hs => hsim s (by simp [hs]))
        (fun q hq => hsh q (by simp [hq]))
      refine ⟨m', h1, h2, ?_, ?_, h5⟩
      · intro q hq s hs
        rcases List.mem_cons.1 hq with rfl | hq
        · rw [hf] at hs; cases hs
        · exact h3 q hq s hs
      · intro k hk
        rw [List.map_cons, List.mem_cons, not_or] at hk
        exact h4 k hk.2
    | some s =>
      have hr := reread_write E sep tol s new (hsim new (by simp)) (hsh new (by simp) s hf)
      rw [ht, Option.getD_some] at hr
      simp only [hr]
      have hfo : ∀ q ∈ ss, StdMap.find (StdMap.put m new.name (Spec.refreshed sep tol s new)) q.name =
          StdMap.find m q.name := by
        intro q hq
        rw [StdMap.find_put hm, if_neg]
        intro e
        exact hnd.1 (List.mem_map.2 ⟨q, hq, e⟩)
      obtain ⟨m', h1, h2, h3, h4, h5⟩ := ih (StdMap.put m new.name (Spec.refreshed sep tol s new))
        (StdMap.sorted_put hm _ _) hnd.2 (fun s hs => hsim s (by simp [hs]))
        (fun q hq u hu => hsh q (by simp [hq]) u (by rw [← hfo q hq]; exact hu))
      refine ⟨m', h1, h2, ?_, ?_, ?_⟩
      · intro q hq u hu
        rcases List.mem_cons.1 hq with rfl | hq
        · rw [h4 _ hnd.1, StdMap.find_put hm, if_pos rfl]
          rw [hf] at hu
          cases hu
          rfl
        · exact h3 q hq u (by rw [hfo q hq]; exact hu)
      · intro k hk
        rw [List.map_cons, List.mem_cons, not_or] at hk
        rw [h4 k hk.2, StdMap.find_put hm, if_neg hk.1]
      · intro k hk
        apply h5
        rw [StdMap.find_put hm, if_neg]
        · exact hk
        · intro e; rw [e, hf] at hk; cases hk

/-- **C75** (partial).  Reading again a file that was written from point and diffuse sources:
every source of the model that is in the file, and has the same kind and the same parameters
there, takes the values, scales, bounds and free flags of the file, and a point source also
the position if it is more than the tolerance away; every other source is as before; no source
is added; and the parameter list of the model is that of its sources.

Missing: a position within the tolerance is not taken (`C75_small_violates`), a model with a
composite source cannot be read again (`C75_composite_violates`), and what a function keeps
besides its parameters is not made anew (`C75_energies_violates`). -/
theorem C75_updated_partial (E : Env K) (sep : K × K → K × K → K) (tol : K)
    (funcLib title : String) (ss : List (Src K)) (m : Mdl K) (hm : StdMap.Sorted m.srcs)
    (hnd : (ss.map Src.name).Nodup) (hsim : ∀ s ∈ ss, Spec.Simple E s)
    (hsh : ∀ new ∈ ss, ∀ s, StdMap.find m.srcs new.name = some s → Spec.SameShape s new) :
    ∃ m', reReadXml E sep tol (libNode E funcLib title ss) m = .ok m' ∧
      (∀ new ∈ ss, ∀ s, StdMap.find m.srcs new.name = some s →
        StdMap.find m'.srcs new.name = some (Spec.refreshed sep tol s new)) ∧
      (∀ k, k ∉ ss.map Src.name → StdMap.find m'.srcs k = StdMap.find m.srcs k) ∧
      (∀ k, StdMap.find m.srcs k = none → StdMap.find m'.srcs k = none) ∧
      m'.params = Spec.paramList m'.srcs := by
  obtain ⟨m', h1, h2, h3, h4, h5⟩ := rereadAll_write E sep tol ss m.srcs hm hnd hsim hsh
  refine ⟨⟨m', syncList m'⟩, ?_, h3, h4, h5, rfl⟩
  rw [reReadXml, kids_lib, h1]

/-- A distance for the examples. -/
def exSep (a b : ℚ × ℚ) : ℚ := if a = b then 0 else 1

/-- The point source of the examples at another place and with another norm. -/
def exMoved : Src ℚ :=
  .point "vela" { exPiece with pars := exPiece.pars.map (fun p => { p with value := 3 }) }
    ⟨true, true, true⟩ 3 3

theorem exMovedSimple : Spec.Simple exEnv exMoved := by
  refine ⟨?_, exSurvives 3 (by simp), exSurvives 3 (by simp)⟩
  intro p hp
  simp only [exMoved, exPiece, List.map_cons, List.map_nil, List.mem_cons, List.not_mem_nil,
    or_false] at hp
  rcases hp with rfl | rfl | rfl | rfl | rfl | rfl <;>
    exact exParOK _ _ _ _ _ _ _ (by simp) (by simp) (by simp) (by simp)

theorem exMovedShape : Spec.SameShape exPoint exMoved := by
  show exPiece.pars.map (·.name) = _
  rfl

example : ∃ m', reReadXml exEnv exSep (1/2) (libNode exEnv "" "t" [exMoved])
      ⟨[("gal", exDiffuse), ("vela", exPoint)], []⟩ = .ok m' ∧
    StdMap.find m'.srcs "vela" = some (Spec.refreshed exSep (1/2) exPoint exMoved) ∧
    StdMap.find m'.srcs "gal" = some exDiffuse := by
  obtain ⟨m', h1, h2, h3, _, _⟩ := C75_updated_partial exEnv exSep (1/2) "" "t" [exMoved]
    ⟨[("gal", exDiffuse), ("vela", exPoint)], []⟩
    (by
      show (["gal", "vela"] : List String).Pairwise (· < ·)
      decide)
    (by simp) (by
      intro s hs
      rw [List.mem_singleton] at hs
      subst hs
      exact exMovedSimple)
    (by
      intro new hnew s hs
      rw [List.mem_singleton] at hnew
      subst hnew
      have : s = exPoint := (Option.some.inj hs).symm
      subst this
      exact exMovedShape)
  exact ⟨m', h1, h2 exMoved (by simp) exPoint rfl, h3 "gal" (by simp [exMoved, Src.name])⟩

/-! ### Any file -/

theorem rereadType_name (E : Env K) (sep : K × K → K × K → K) (tol : K) (n : Node) (t : String)
    (s s' : Src K) (h : rereadType E sep tol n t s = .ok s' ∨ rereadType E sep tol n t s = .throws s') :
    s'.name = s.name := by
  unfold rereadType at h
  split at h
  · rcases h with h | h
    · cases h
      unfold rereadPoint
      split
      · rfl
      · cases s with
        | point name spec f ra dec => simp only []; split <;> rfl
        | _ => rfl
    · cases h
  · split at h
    · cases hd : rereadDiffuse E n s with
      | ok q =>
        rw [hd] at h
        rcases h with h | h
        · cases h
          unfold rereadDiffuse at hd
          split at hd
          · cases hd; rfl
          · split at hd
            · cases hd; rfl
            · cases s with
              | diffuse name spec f t ps fi mi =>
                simp only [] at hd
                obtain ⟨ps', _, hd⟩ := Res.bind_eq_ok.1 hd
                cases hd; rfl
              | _ => cases hd
        · cases h
      | throws =>
        rw [hd] at h
        rcases h with h | h
        · cases h
        · cases h; rfl
      | ub => rw [hd] at h; rcases h with h | h <;> cases h
    · rcases h with h | h
      · cases h
      · cases h; rfl

/-- The state after a call that did not end in undefined behaviour. -/
def Out.state? {S : Type} : Out S → Option S
  | .ok s => some s
  | .throws s => some s
  | .ub => none

theorem rereadAll_others (E : Env K) (sep : K × K → K × K → K) (tol : K) (k : String) :
    ∀ (ns : List Node) (m m' : SrcMap K), StdMap.Sorted m →
    (∀ n ∈ ns, attr? n "name" ≠ some k) →
    (rereadAll E sep tol ns m).state? = some m' →
    StdMap.Sorted m' ∧ StdMap.find m' k = StdMap.find m k := by
  intro ns
  induction ns with
  | nil => intro m m' hm _ h; rw [rereadAll] at h; cases h; exact ⟨hm, rfl⟩
  | cons n ns ih =>
    intro m m' hm hk h
    have hk' : ∀ q ∈ ns, attr? q "name" ≠ some k := fun q hq => hk q (by simp [hq])
    rw [rereadAll] at h
    split at h
    · rename_i name type hname htype
      have hne : k ≠ name := fun e => hk n (by simp) (by rw [hname, e])
      split at h
      · exact ih m m' hm hk' h
      · rename_i s hf
        split at h
        · rename_i s' hs
          obtain ⟨h1, h2⟩ := ih _ m' (StdMap.sorted_put hm _ _) hk' h
          exact ⟨h1, by rw [h2, StdMap.find_put hm, if_neg hne]⟩
        · rename_i s' hs
          cases h
          exact ⟨StdMap.sorted_put hm _ _, by rw [StdMap.find_put hm, if_neg hne]⟩
        · cases h
    · exact ih m m' hm hk' h

theorem rereadAll_keys (E : Env K) (sep : K × K → K × K → K) (tol : K) :
    ∀ (ns : List Node) (m m' : SrcMap K), StdMap.Sorted m →
    (rereadAll E sep tol ns m).state? = some m' →
    ∀ k, StdMap.find m' k = none ↔ StdMap.find m k = none := by
  intro ns
  induction ns with
  | nil => intro m m' hm h k; rw [rereadAll] at h; cases h; exact Iff.rfl
  | cons n ns ih =>
    intro m m' hm h k
    have hput : ∀ (name : String) (s s' : Src K), StdMap.find m name = some s →
        (StdMap.find (StdMap.put m name s') k = none ↔ StdMap.find m k = none) := by
      intro name s s' hf
      rw [StdMap.find_put hm]
      by_cases c : k = name
      · subst c; rw [if_pos rfl, hf]; simp
      · rw [if_neg c]
    rw [rereadAll] at h
    split at h
    · rename_i name type hname htype
      split at h
      · exact ih m m' hm h k
      · rename_i s hf
        split at h
        · rename_i s' hs
          rw [ih _ m' (StdMap.sorted_put hm _ _) h k]
          exact hput name s s' hf
        · rename_i s' hs
          cases h
          exact hput name s s' hf
        · cases h
    · exact ih m m' hm h k

/-- **C75**.  Whatever the file, and whether reading it again succeeds or throws: the model has
the same source names afterwards, and a source whose name no element of the file has is
exactly as before. -/
theorem C75_others (E : Env K) (sep : K × K → K × K → K) (tol : K) (lib : Node) (m m' : Mdl K)
    (hm : StdMap.Sorted m.srcs) (h : (reReadXml E sep tol lib m).state? = some m') :
    (∀ k, StdMap.find m'.srcs k = none ↔ StdMap.find m.srcs k = none) ∧
    ∀ k, (∀ n ∈ lib.kids, attr? n "name" ≠ some k) →
      StdMap.find m'.srcs k = StdMap.find m.srcs k := by
  have hst : (rereadAll E sep tol (kidsOf lib "source") m.srcs).state? = some m'.srcs := by
    unfold reReadXml at h
    cases hr : rereadAll E sep tol (kidsOf lib "source") m.srcs with
    | ok s => rw [hr] at h; cases h; rfl
    | throws s => rw [hr] at h; cases h; rfl
    | ub => rw [hr] at h; cases h
  refine ⟨rereadAll_keys E sep tol _ _ _ hm hst, ?_⟩
  intro k hk
  exact (rereadAll_others E sep tol k _ _ _ hm
    (fun n hn => hk n (List.mem_of_mem_filter hn)) hst).2

example : StdMap.Sorted [("gal", exDiffuse), ("vela", exPoint)] := by
  show (["gal", "vela"] : List String).Pairwise (· < ·)
  decide

/-! ### Where it does not -/

/-- **C75**, violated.  A point source that the file puts at another position, not more than
the tolerance (1e-4 radians, 20 arc seconds) away, stays where it is, although no error is
reported and its other parameters are taken. -/
theorem C75_small_violates (E : Env K) (sep : K × K → K × K → K) (tol : K)
    (funcLib title name : String) (sp sp' : Spectrum K) (f f' : Flags) (ra dec ra' dec' : K)
    (ps : List (Par K)) (hsim : Spec.Simple E (.point name sp' f' ra' dec'))
    (hsh : sp.pars.map (·.name) = sp'.pars.map (·.name))
    (hne : (ra', dec') ≠ (ra, dec)) (hsep : sep (ra', dec') (ra, dec) ≤ tol) :
    ∃ m', reReadXml E sep tol (libNode E funcLib title [.point name sp' f' ra' dec'])
        ⟨[(name, .point name sp f ra dec)], ps⟩ = .ok m' ∧
      StdMap.find m'.srcs name = some (.point name (Spec.takePars sp sp') f ra dec) := by
  obtain ⟨m', h1, h2, _⟩ := C75_updated_partial E sep tol funcLib title
    [.point name sp' f' ra' dec'] ⟨[(name, .point name sp f ra dec)], ps⟩
    (by simp [StdMap.Sorted, StdMap.keys]) (by simp)
    (by intro s hs; rw [List.mem_singleton] at hs; subst hs; exact hsim)
    (by
      intro new hnew s hs
      rw [List.mem_singleton] at hnew
      subst hnew
      simp only [Src.name, StdMap.find, if_true, Option.some.injEq] at hs
      subst hs
      exact hsh)
  refine ⟨m', h1, ?_⟩
  have := h2 (.point name sp' f' ra' dec') (by simp) (.point name sp f ra dec)
    (by simp [Src.name, StdMap.find])
  rw [Spec.refreshed, if_neg (not_lt.2 hsep)] at this
  exact this

example : Spec.Simple exEnv exMoved ∧ ((3 : ℚ), (3 : ℚ)) ≠ (2, 1) ∧ exSep (3, 3) (2, 1) ≤ 1 :=
  ⟨exMovedSimple, by simp, by simp [exSep]⟩

/-- **C75**, violated.  The energies of a piecewise power law are kept besides its parameters,
and are not made anew: after the file was read again its parameters are those of the file, but
the energies at which the function changes its slope are the old ones. -/
theorem C75_energies_violates (E : Env K) (sep : K × K → K × K → K) (tol : K)
    (funcLib title name : String) (sp sp' : Spectrum K) (f f' : Flags) (ra dec : K)
    (ps : List (Par K)) (hsim : Spec.Simple E (.point name sp' f' ra dec))
    (hsh : sp.pars.map (·.name) = sp'.pars.map (·.name)) (hold : Spec.Piecewise E sp)
    (hnew : Spec.Piecewise E sp') (hne : sp.nodes ≠ sp'.nodes) :
    ∃ m' s', reReadXml E sep tol (libNode E funcLib title [.point name sp' f' ra dec])
        ⟨[(name, .point name sp f ra dec)], ps⟩ = .ok m' ∧
      StdMap.find m'.srcs name = some s' ∧ s'.spec.pars = sp'.pars.map Spec.forget ∧
      s'.spec.nodes = sp.nodes ∧ s'.spec.nodes ≠ sp'.nodes := by
  obtain ⟨m', h1, h2, _⟩ := C75_updated_partial E sep tol funcLib title
    [.point name sp' f' ra dec] ⟨[(name, .point name sp f ra dec)], ps⟩
    (by simp [StdMap.Sorted, StdMap.keys]) (by simp)
    (by intro s hs; rw [List.mem_singleton] at hs; subst hs; exact hsim)
    (by
      intro new hnew s hs
      rw [List.mem_singleton] at hnew
      subst hnew
      simp only [Src.name, StdMap.find, if_true, Option.some.injEq] at hs
      subst hs
      exact hsh)
  have := h2 (.point name sp' f' ra dec) (by simp) (.point name sp f ra dec)
    (by simp [Src.name, StdMap.find])
  refine ⟨m', _, h1, this, ?_, ?_, ?_⟩
  · rw [Spec.refreshed]; split <;> rfl
  · rw [Spec.refreshed]; split <;> rfl
  · rw [Spec.refreshed]
    split <;> exact hne

/-- The piecewise power law of the examples with other energies. -/
def exPiece2 : Spectrum ℚ :=
  ⟨"PiecewisePowerLaw",
   [⟨"IndexL", 1, 1, 0, 3, true, 0⟩, ⟨"IndexH", 2, 1, 0, 3, true, 0⟩,
    ⟨"dNdE0", 1, 2, 0, 3, true, 0⟩, ⟨"dNdE1", 2, 1, 0, 3, true, 0⟩,
    ⟨"Energy0", 1, 1, 0, 3, false, 0⟩, ⟨"Energy1", 3, 1, 0, 3, false, 0⟩],
   "", some "scale.txt", [1, 3]⟩

example : Spec.Piecewise exEnv exPiece2 ∧ exPiece.nodes ≠ exPiece2.nodes ∧
    exPiece.pars.map (·.name) = exPiece2.pars.map (·.name) := by
  refine ⟨⟨rfl, rfl, ⟨"IndexL", 1, 1, 0, 3, true, 0⟩, ⟨"IndexH", 2, 1, 0, 3, true, 0⟩,
    [⟨"dNdE0", 1, 2, 0, 3, true, 0⟩, ⟨"dNdE1", 2, 1, 0, 3, true, 0⟩],
    [⟨"Energy0", 1, 1, 0, 3, false, 0⟩, ⟨"Energy1", 3, 1, 0, 3, false, 0⟩],
    rfl, rfl, rfl, by unfold Spec.Numbered; decide, by unfold Spec.Numbered; decide, rfl, ?_, ?_⟩,
    ?_, rfl⟩
  · simp [exPiece2]
  · simp only [exPiece2, List.pairwise_cons, List.mem_singleton, List.not_mem_nil]
    refine ⟨?_, by simp, List.Pairwise.nil⟩
    rintro x rfl; norm_num
  · simp [exPiece, exPiece2]

/-- **C75**, violated.  A model with a composite source cannot be read again: the call throws at
the composite source, after the sources before it and the spectrum of the composite source
itself have taken the values of the file, and the parameter list of the model is still the old
one. -/
theorem C75_composite_violates (E : Env K) (sep : K × K → K × K → K) (tol : K)
    (funcLib title cname : String) (q q' : Src K) (sp sp' : Spectrum K) (f f' : Flags)
    (ms ms' : List (Src K)) (ps : List (Par K)) (hlt : q'.name < cname)
    (hsim : Spec.Simple E q') (hsh : Spec.SameShape q q')
    (hok : ∀ p ∈ sp'.pars, Spec.ParOK E p) (hn : sp.pars.map (·.name) = sp'.pars.map (·.name)) :
    reReadXml E sep tol (libNode E funcLib title [q', .composite cname sp' f' ms'])
        ⟨[(q'.name, q), (cname, .composite cname sp f ms)], ps⟩ =
      .throws ⟨[(q'.name, Spec.refreshed sep tol q q'),
        (cname, .composite cname (Spec.takePars sp sp') f ms)], ps⟩ := by
  have hne : ¬ q'.name = cname := ne_of_lt hlt
  obtain ⟨t, ht⟩ := src_type? E q'
  have hr := reread_write E sep tol q q' hsim hsh
  rw [ht, Option.getD_some] at hr
  rw [reReadXml, kids_lib, srcNodes, rereadAll, src_name?, ht]
  simp only [StdMap.find, if_true, hr]
  have hput : StdMap.put [(q'.name, q), (cname, Src.composite cname sp f ms)] q'.name
      (Spec.refreshed sep tol q q') =
      [(q'.name, Spec.refreshed sep tol q q'), (cname, Src.composite cname sp f ms)] := by
    rw [StdMap.put, if_neg (lt_irrefl _), if_pos rfl]
  rw [hput, srcNodes, rereadAll, src_name?]
  have ht2 : attr? (srcNode E (.composite cname sp' f' ms')) "type" = some "CompositeSource" := by
    rw [srcNode]; simp [attr?, Node.attrs, List.find?]
  rw [ht2, show (Src.composite cname sp' f' ms').name = cname from rfl]
  simp only [StdMap.find, if_neg hne, if_true]
  have hs : rereadSrc E sep tol (srcNode E (.composite cname sp' f' ms')) "CompositeSource"
      (.composite cname sp f ms) = .throws (.composite cname (Spec.takePars sp sp') f ms) := by
    rw [srcNode, rereadSrc, rereadSpec, kidsOf_first _ _ _ _ "spectrum" rfl (by simp [Node.tag])]
    simp only [parse_spec E sp' hok]
    rw [show (Src.composite cname sp f ms).spec.pars = sp.pars from rfl, setAll_same _ _ hn]
    simp only [Res.bind_ok, Res.pure_eq]
    rw [rereadType, if_neg (by decide), if_neg (by decide)]
    rfl
  rw [hs]
  simp only []
  have hput2 : StdMap.put [(q'.name, Spec.refreshed sep tol q q'), (cname, Src.composite cname sp f ms)]
      cname (Src.composite cname (Spec.takePars sp sp') f ms) =
      [(q'.name, Spec.refreshed sep tol q q'),
        (cname, Src.composite cname (Spec.takePars sp sp') f ms)] := by
    rw [StdMap.put, if_neg (not_lt.2 hlt.le), if_neg (fun e => hne e.symm), StdMap.put,
      if_neg (lt_irrefl _), if_pos rfl]
  rw [hput2]

example : exMoved.name < "zzz" ∧ Spec.Simple exEnv exMoved ∧ Spec.SameShape exPoint exMoved :=
  ⟨by decide, exMovedSimple, exMovedShape⟩

/-- **C75**, violated.  If the file has a diffuse source with the name of a point source of the
model, reading it again is undefined behaviour: the spatial function of the point source, a
null pointer, is given the parameters. -/
theorem C75_kind_violates (E : Env K) (sep : K × K → K × K → K) (tol : K)
    (funcLib title name : String) (sp sp' : Spectrum K) (f f' : Flags) (ra dec : K)
    (t fi : String) (mi : Bool) (p : Par K) (qs ps : List (Par K))
    (hsim : Spec.Simple E (.diffuse name sp' f' t (p :: qs) fi mi))
    (hsh : sp.pars.map (·.name) = sp'.pars.map (·.name)) :
    reReadXml E sep tol (libNode E funcLib title [.diffuse name sp' f' t (p :: qs) fi mi])
        ⟨[(name, .point name sp f ra dec)], ps⟩ = .ub := by
  simp only [Spec.Simple] at hsim
  rw [reReadXml, kids_lib, srcNodes, rereadAll, src_name?]
  have ht : attr? (srcNode E (.diffuse name sp' f' t (p :: qs) fi mi)) "type" =
      some "DiffuseSource" := by rw [srcNode]; simp [attr?, Node.attrs, List.find?]
  rw [ht]
  simp only [Src.name, StdMap.find, if_true]
  have hs : rereadSrc E sep tol (srcNode E (.diffuse name sp' f' t (p :: qs) fi mi))
      "DiffuseSource" (.point name sp f ra dec) = .ub := by
    rw [srcNode]
    generalize hst : (Node.mk "spatialModel"
      ([("type", t)] ++ (if t ∈ mapTypes then [("file", fi)] else [])
        ++ (if mi then [("map_based_integral", "true")] else []))
      ((p :: qs).map (parNode E))) = st
    have hstag : st.tag = "spatialModel" := by rw [← hst]; rfl
    have hk : parsePars E st = (p :: qs).map Spec.forget := by
      rw [← hst, parsePars, kids_pars, parse_map E _ hsim.2]
    rw [rereadSrc, rereadSpec, kidsOf_first _ _ _ _ "spectrum" rfl (by rw [hstag]; decide)]
    simp only [parse_spec E sp' hsim.1]
    rw [show (Src.point name sp f ra dec).spec.pars = sp.pars from rfl, setAll_same _ _ hsh]
    simp only [Res.bind_ok, Res.pure_eq]
    rw [rereadType, if_neg (by decide), if_pos rfl, rereadDiffuse,
      kidsOf_second _ _ _ _ "spatialModel" (by simp [spectrumNode, Node.tag]) hstag]
    simp only [hk, withPars, List.map_cons, List.isEmpty_cons, Bool.false_eq_true, if_false]
  rw [hs]

example : Spec.Simple exEnv exDiffuse ∧ exSpec.pars.map (·.name) = exSpec.pars.map (·.name) := by
  refine ⟨⟨exSpecOK.1, ?_⟩, rfl⟩
  intro p hp
  rw [List.mem_singleton] at hp
  subst hp
  exact exParOK _ _ _ _ _ _ _ (by simp) (by simp) (by simp) (by simp)

/-- **C75**, violated.  A point source whose file entry has a spatial part without a position is
moved to right ascension and declination 0. -/
theorem C75_position_violates (E : Env K) (sep : K × K → K × K → K) (tol : K)
    (name : String) (sp : Spectrum K) (f : Flags) (ra dec : K) (ps : List (Par K))
    (hsep : tol < sep (0, 0) (ra, dec)) :
    reReadXml E sep tol (.mk "source_library" []
        [.mk "source" [("name", name), ("type", "PointSource")] [.mk "spatialModel" [] []]])
        ⟨[(name, .point name sp f ra dec)], ps⟩ =
      .ok ⟨[(name, .point name sp f 0 0)], sp.pars⟩ := by
  have hk : kidsOf (Node.mk "source_library" []
      [.mk "source" [("name", name), ("type", "PointSource")] [.mk "spatialModel" [] []]]) "source" =
      [.mk "source" [("name", name), ("type", "PointSource")] [.mk "spatialModel" [] []]] := by
    simp [kidsOf, Node.kids, Node.tag]
  have h1 : attr? (Node.mk "source" [("name", name), ("type", "PointSource")]
      [.mk "spatialModel" [] []]) "name" = some name := by simp [attr?, Node.attrs]
  have h2 : attr? (Node.mk "source" [("name", name), ("type", "PointSource")]
      [.mk "spatialModel" [] []]) "type" = some "PointSource" := by
    simp [attr?, Node.attrs, List.find?]
  have h3 : kidsOf (Node.mk "source" [("name", name), ("type", "PointSource")]
      [.mk "spatialModel" [] []]) "spectrum" = [] := by
    simp [kidsOf, Node.kids, Node.tag]
  have h4 : kidsOf (Node.mk "source" [("name", name), ("type", "PointSource")]
      [.mk "spatialModel" [] []]) "spatialModel" = [.mk "spatialModel" [] []] := by
    simp [kidsOf, Node.kids, Node.tag]
  have h5 : kidsOf (Node.mk "spatialModel" [] []) "parameter" = [] := rfl
  rw [reReadXml, hk, rereadAll, h1, h2]
  simp only [StdMap.find, if_true, rereadSrc, rereadSpec, h3, rereadType, rereadPoint, h4, h5,
    rereadPos, if_pos hsep]
  rw [rereadAll]
  simp only [StdMap.put, lt_irrefl, if_false, if_true, syncList, List.flatMap_cons,
    List.flatMap_nil, Src.spec, List.append_nil]

example : (1/2 : ℚ) < exSep (0, 0) (2, 1) := by norm_num [exSep]

end Verif.Xml
