import Verif.Xml.Props
/-
C74: every source of a model file is in the model that is read, or reading fails and nothing
is changed.
-/
set_option linter.unusedSectionVars false
set_option linter.unusedSimpArgs false
set_option linter.unusedVariables false
namespace Verif.Xml

variable {K : Type} [Field K] [LinearOrder K]

/-! ### Names -/

theorem readPoint_name (E : Env K) (name : String) (a b : Node) (s : Src K)
    (h : readPoint E name a b = .ok s) : s.name = name := by
  unfold readPoint at h
  split at h
  · cases h
  · obtain ⟨sp, _, h⟩ := Res.bind_eq_ok.1 h
    obtain ⟨psf, _, h⟩ := Res.bind_eq_ok.1 h
    obtain ⟨expo, _, h⟩ := Res.bind_eq_ok.1 h
    cases h; rfl

theorem readDiffuse_name (E : Env K) (name : String) (a b : Node) (s : Src K)
    (h : readDiffuse E name a b = .ok s) : s.name = name := by
  unfold readDiffuse at h
  obtain ⟨ps, _, h⟩ := Res.bind_eq_ok.1 h
  obtain ⟨ps', _, h⟩ := Res.bind_eq_ok.1 h
  obtain ⟨sp, _, h⟩ := Res.bind_eq_ok.1 h
  obtain ⟨psf, _, h⟩ := Res.bind_eq_ok.1 h
  obtain ⟨expo, _, h⟩ := Res.bind_eq_ok.1 h
  cases h; rfl

theorem mkComposite_name (E : Env K) (name : String) (a : Node) (ss : List (Src K)) (s : Src K)
    (h : mkComposite E name a ss = .ok s) : s.name = name := by
  unfold mkComposite at h
  obtain ⟨m, _, h⟩ := Res.bind_eq_ok.1 h
  obtain ⟨sp, _, h⟩ := Res.bind_eq_ok.1 h
  cases h; rfl

theorem readSrc_name (E : Env K) (ap : Bool) (n : Node) (s : Src K)
    (h : readSrc E ap n = .ok (some s)) : s.name = attrD n "name" "" := by
  obtain ⟨tag, attrs, kids⟩ := n
  rw [readSrc] at h
  split at h
  · split at h
    · split at h
      · obtain ⟨ss, _, h⟩ := Res.bind_eq_ok.1 h
        obtain ⟨s', hs, h⟩ := Res.bind_eq_ok.1 h
        cases h
        exact mkComposite_name _ _ _ _ _ hs
      · cases h
    · unfold readSimple at h
      split at h
      · split at h
        · obtain ⟨s', hs, h⟩ := Res.bind_eq_ok.1 h
          cases h
          exact readPoint_name _ _ _ _ _ hs
        · split at h
          · obtain ⟨s', hs, h⟩ := Res.bind_eq_ok.1 h
            cases h
            exact readDiffuse_name _ _ _ _ _ hs
          · cases h
      · cases h
  · cases h

theorem readSrc_known (E : Env K) (n : Node) (o : Option (Src K))
    (ht : attrD n "type" "" = "PointSource" ∨ attrD n "type" "" = "DiffuseSource" ∨
      attrD n "type" "" = "CompositeSource") (h : readSrc E true n = .ok o) : o ≠ none := by
  rintro rfl
  obtain ⟨tag, attrs, kids⟩ := n
  rw [readSrc] at h
  split at h
  · split at h
    · split at h
      · obtain ⟨ss, _, h⟩ := Res.bind_eq_ok.1 h
        obtain ⟨s', hs, h⟩ := Res.bind_eq_ok.1 h
        cases h
      · cases h
    · rename_i hc
      unfold readSimple at h
      split at h
      · split at h
        · obtain ⟨s', hs, h⟩ := Res.bind_eq_ok.1 h
          cases h
        · split at h
          · obtain ⟨s', hs, h⟩ := Res.bind_eq_ok.1 h
            cases h
          · rename_i h1 h2
            rcases ht with e | e | e
            · exact h1 ⟨rfl, e⟩
            · exact h2 e
            · exact hc e
      · cases h
  · cases h

/-- **C74** (partial).  If every source element of a file has one of the three known types,
then either reading fails, or each element has become a source, with the name the file gives
it, in the order of the file.

Missing: elements of other types are passed over in silence (`C74_unknown_violates`). -/
theorem C74_all_partial (E : Env K) : ∀ (ns : List Node) (ss : List (Src K)),
    (∀ n ∈ ns, n.tag = "source" → attrD n "type" "" = "PointSource" ∨
      attrD n "type" "" = "DiffuseSource" ∨ attrD n "type" "" = "CompositeSource") →
    readSrcs E true ns = .ok ss →
    ss.map Src.name = (ns.filter (fun n => n.tag == "source")).map (fun n => attrD n "name" "") := by
  intro ns
  induction ns with
  | nil => intro ss _ h; rw [readSrcs] at h; cases h; rfl
  | cons n ns ih =>
    intro ss ht h
    rw [readSrcs] at h
    by_cases c : n.tag = "source"
    · rw [if_pos c] at h
      obtain ⟨o, ho, h⟩ := Res.bind_eq_ok.1 h
      obtain ⟨ss', hss, h⟩ := Res.bind_eq_ok.1 h
      cases h
      have hne := readSrc_known E n o (ht n (by simp) c) ho
      cases o with
      | none => exact absurd rfl hne
      | some s =>
        rw [List.filter_cons_of_pos (by simp [c]), List.map_cons, Option.toList_some,
          List.singleton_append, List.map_cons, readSrc_name E true n s ho,
          ih ss' (fun m hm => ht m (by simp [hm])) hss]
    · rw [if_neg c] at h
      rw [List.filter_cons_of_neg (by simp [c])]
      exact ih ss (fun m hm => ht m (by simp [hm])) h

example : readSrcs exEnv true (srcNodes exEnv [exComp, exDiffuse, exPoint]) =
      .ok (Spec.savedAll [exComp, exDiffuse, exPoint]) ∧
    (∀ n ∈ srcNodes exEnv [exComp, exDiffuse, exPoint], n.tag = "source" →
      attrD n "type" "" = "PointSource" ∨ attrD n "type" "" = "DiffuseSource" ∨
      attrD n "type" "" = "CompositeSource") := by
  refine ⟨readSrcs_write exEnv _ exAllOK, ?_⟩
  intro n hn _
  simp only [srcNodes, List.mem_cons, List.not_mem_nil, or_false] at hn
  rcases hn with rfl | rfl | rfl
  · right; right; simp [exComp, srcNode, attrD, attr?, Node.attrs, List.find?]
  · right; left; simp [exDiffuse, srcNode, attrD, attr?, Node.attrs, List.find?]
  · left; simp [exPoint, srcNode, attrD, attr?, Node.attrs, List.find?]

/-- **C74**, violated.  A source element with a type that is not one of the three known ones,
for example a misspelt one, is passed over: the file is read as if the element were not there,
and no error is reported. -/
theorem C74_unknown_violates (E : Env K) (ap : Bool) (pre post : List Node) (n sp st : Node)
    (hsp : kidsOf n "spectrum" = [sp]) (hst : kidsOf n "spatialModel" = [st])
    (h1 : attrD n "type" "" ≠ "PointSource") (h2 : attrD n "type" "" ≠ "DiffuseSource")
    (h3 : attrD n "type" "" ≠ "CompositeSource") :
    readSrcs E ap (pre ++ n :: post) = readSrcs E ap (pre ++ post) := by
  have hn : readSrc E ap n = .ok none := by
    obtain ⟨tag, attrs, kids⟩ := n
    rw [readSrc, hsp]
    simp only []
    rw [if_neg h3, hst, readSimple, if_neg (fun h => h1 h.2), if_neg h2]
  induction pre with
  | nil =>
    rw [List.nil_append, List.nil_append, readSrcs, hn]
    by_cases c : n.tag = "source"
    · rw [if_pos c, Res.bind_ok]
      cases readSrcs E ap post <;> rfl
    · rw [if_neg c]
  | cons m pre ih =>
    rw [List.cons_append, List.cons_append, readSrcs, readSrcs, ih]

example : readSrcs exEnv true
    ([] ++ .mk "source" [("name", "crab"), ("type", "Pointsource")]
      [spectrumNode exEnv exSpec, .mk "spatialModel" [("type", "SkyDirFunction")] []]
      :: srcNodes exEnv [exPoint]) = .ok [Spec.saved exPoint] := by
  rw [C74_unknown_violates exEnv true [] _ _ (spectrumNode exEnv exSpec)
    (.mk "spatialModel" [("type", "SkyDirFunction")] [])
    (kidsOf_first _ _ _ _ "spectrum" rfl (by simp [Node.tag]))
    (kidsOf_second _ _ _ _ "spatialModel" (by simp [spectrumNode, Node.tag]) rfl)
    (by simp [attrD, attr?, Node.attrs, List.find?])
    (by simp [attrD, attr?, Node.attrs, List.find?])
    (by simp [attrD, attr?, Node.attrs, List.find?])]
  exact readSrcs_write exEnv [exPoint] ⟨exPointOK, trivial⟩

/-! ### Switches and positions -/

theorem flag_iff {n : Node} {a : String} {b : Bool} (h : flagAttr n a = .ok b) :
    (attr? n a = none ∨ attr? n a = some "" ∨ attr? n a = some "true" ∨
      attr? n a = some "false") ∧ (b = false ↔ attr? n a = some "false") := by
  unfold flagAttr at h
  split at h
  · cases h
  · rename_i hc
    cases h
    simp only [attrD] at hc ⊢
    cases hx : attr? n a with
    | none => simp [hx]
    | some v =>
      simp only [hx, Option.getD_some] at hc ⊢
      refine ⟨?_, by simp⟩
      by_contra hn
      simp only [Option.some.injEq, not_or] at hn
      exact hc ⟨hn.2.2.1, hn.2.2.2, hn.2.1⟩

/-- **C74**.  The switches of a source that is read: for a point or a diffuse source the
attributes `apply_psf` and `apply_exposure` of the spatial part and `apply_edisp` of the
spectrum are missing, empty, "true" or "false", and the switch is off exactly if the file says
"false".  All other values make reading fail. -/
theorem C74_switches (E : Env K) (ap : Bool) (n sp st : Node) (s : Src K)
    (hsp : kidsOf n "spectrum" = [sp]) (hst : kidsOf n "spatialModel" = [st])
    (hc : attrD n "type" "" ≠ "CompositeSource") (h : readSrc E ap n = .ok (some s)) :
    (∀ x ∈ [(st, "apply_psf"), (st, "apply_exposure"), (sp, "apply_edisp")],
      attr? x.1 x.2 = none ∨ attr? x.1 x.2 = some "" ∨ attr? x.1 x.2 = some "true" ∨
        attr? x.1 x.2 = some "false") ∧
    (s.flags.psf = false ↔ attr? st "apply_psf" = some "false") ∧
    (s.flags.expo = false ↔ attr? st "apply_exposure" = some "false") ∧
    (s.flags.edisp = false ↔ attr? sp "apply_edisp" = some "false") := by
  have key : ∃ psf expo spec edisp, flagAttr st "apply_psf" = .ok psf ∧
      flagAttr st "apply_exposure" = .ok expo ∧ readSpectrum E sp = .ok (spec, edisp) ∧
      s.flags = ⟨psf, expo, edisp⟩ := by
    obtain ⟨tag, attrs, kids⟩ := n
    rw [readSrc, hsp] at h
    simp only [] at h
    rw [if_neg hc, hst, readSimple] at h
    split at h
    · obtain ⟨s', hs, h⟩ := Res.bind_eq_ok.1 h
      cases h
      unfold readPoint at hs
      split at hs
      · cases hs
      · obtain ⟨spp, h1, hs⟩ := Res.bind_eq_ok.1 hs
        obtain ⟨psf, h2, hs⟩ := Res.bind_eq_ok.1 hs
        obtain ⟨expo, h3, hs⟩ := Res.bind_eq_ok.1 hs
        cases hs
        exact ⟨psf, expo, spp.1, spp.2, h2, h3, h1, rfl⟩
    · split at h
      · obtain ⟨s', hs, h⟩ := Res.bind_eq_ok.1 h
        cases h
        unfold readDiffuse at hs
        obtain ⟨ps, _, hs⟩ := Res.bind_eq_ok.1 hs
        obtain ⟨ps', _, hs⟩ := Res.bind_eq_ok.1 hs
        obtain ⟨spp, h1, hs⟩ := Res.bind_eq_ok.1 hs
        obtain ⟨psf, h2, hs⟩ := Res.bind_eq_ok.1 hs
        obtain ⟨expo, h3, hs⟩ := Res.bind_eq_ok.1 hs
        cases hs
        exact ⟨psf, expo, spp.1, spp.2, h2, h3, h1, rfl⟩
      · cases h
  obtain ⟨psf, expo, spec, edisp, h1, h2, h3, hf⟩ := key
  have h4 : flagAttr sp "apply_edisp" = .ok edisp := by
    unfold readSpectrum at h3
    obtain ⟨_, _, h3⟩ := Res.bind_eq_ok.1 h3
    obtain ⟨_, _, h3⟩ := Res.bind_eq_ok.1 h3
    obtain ⟨_, _, h3⟩ := Res.bind_eq_ok.1 h3
    obtain ⟨e, he, h3⟩ := Res.bind_eq_ok.1 h3
    cases h3
    exact he
  rw [hf]
  refine ⟨?_, (flag_iff h1).2, (flag_iff h2).2, (flag_iff h4).2⟩
  intro x hx
  simp only [List.mem_cons, List.not_mem_nil, or_false] at hx
  rcases hx with rfl | rfl | rfl
  · exact (flag_iff h1).1
  · exact (flag_iff h2).1
  · exact (flag_iff h4).1

example : ∃ s, readSrc exEnv true (srcNode exEnv exPoint) = .ok (some s) ∧ s.flags.psf = true :=
  ⟨_, readSrc_write exEnv exPoint exPointOK, rfl⟩

/-- **C74**, violated.  A point source whose file entry has no position is not refused: it is
read as a source at right ascension and declination 0. -/
theorem C74_position_violates (E : Env K) (name : String) (spec : Spectrum K)
    (hs : Spec.SpecOK E spec) :
    readSrc E true (.mk "source" [("name", name), ("type", "PointSource")]
      [spectrumNode E spec, .mk "spatialModel" [("type", "SkyDirFunction")] []]) =
      .ok (some (.point name (Spec.forgetSpec spec) ⟨true, true, true⟩ 0 0)) := by
  rw [readSrc, kidsOf_first _ _ _ _ "spectrum" rfl (by simp [Node.tag])]
  simp only []
  rw [if_neg (by simp [attrD, attr?, Node.attrs, List.find?]),
    kidsOf_second _ _ _ _ "spatialModel" (by simp [spectrumNode, Node.tag]) rfl]
  rw [readSimple, if_pos ⟨rfl, by simp [attrD, attr?, Node.attrs, List.find?]⟩, readPoint,
    if_neg (by simp [attrD, attr?, Node.attrs, List.find?])]
  have h1 : flagAttr (Node.mk "spatialModel" [("type", "SkyDirFunction")] []) "apply_psf" =
      .ok true := flag_missing (by simp [attrD, attr?, Node.attrs, List.find?])
  have h2 : flagAttr (Node.mk "spatialModel" [("type", "SkyDirFunction")] []) "apply_exposure" =
      .ok true := flag_missing (by simp [attrD, attr?, Node.attrs, List.find?])
  simp only [readSpectrum_write E spec hs, h1, h2, Res.bind_ok, Res.pure_eq]
  simp only [kidsOf, Node.kids, List.filter_nil, readPos, attrD, attr?, Node.attrs]
  simp

example : Spec.SpecOK exEnv exPiece := exPieceOK

/-- **C74**, violated.  A piecewise power law in whose file entry the first flux value has the
number -1 is no error but undefined behaviour: a vector is emptied and written out of range. -/
theorem C74_negative_violates (E : Env K) (ps : List (Par K)) (n p : Node) (rest : List Node)
    (hE : E.proto "PiecewisePowerLaw" = some ps) (ht : attrD n "type" "" = "PiecewisePowerLaw")
    (hp : kidsOf n "parameter" = p :: rest) (hn : attrD p "name" "" = "dNdE-1") :
    readSpectrum E n = .ub := by
  unfold readSpectrum
  simp only [ht, hE, hp, Res.bind_ok]
  have h1 : afterPrefix "dNdE".toList "dNdE-1" = some ['-', '1'] := by decide
  have h2 : atoi ['-', '1'] = -1 := by decide
  have : special E "PiecewisePowerLaw" (p :: rest) ps = .ub := by
    rw [special, if_neg (by decide), if_pos rfl, piecewiseLoop]
    simp only [hn, h1, h2, growSet, if_true, Res.bind_ub]
  rw [this]
  rfl

example : readSpectrum exEnv (.mk "spectrum" [("type", "PiecewisePowerLaw")]
    [parNode exEnv ⟨"dNdE-1", 1, 1, 0, 3, true, 0⟩]) = .ub :=
  C74_negative_violates exEnv [] _ _ [] rfl (by rfl) (by rfl) (by rfl)

/-! ### Reading into a model that has sources -/

theorem find_put_other {m : SrcMap K} (hm : StdMap.Sorted m) {k x : String} {a : Src K} (h : x ≠ k) :
    StdMap.find (StdMap.put m k a) x = StdMap.find m x := by
  rw [StdMap.find_put hm, if_neg h]

/-- **C74**.  Reading a file into a model that has no source of any name in the file adds
exactly the sources of the file: the model then has the source of the file for each of its
names, and the source it had before for every other name. -/
theorem C74_added : ∀ (f m : SrcMap K), StdMap.Sorted f → StdMap.Sorted m →
    (∀ x ∈ f, StdMap.find m x.1 = none) →
    ∃ m', moveAll f m = .ok m' ∧ StdMap.Sorted m' ∧
      ∀ k, StdMap.find m' k = (StdMap.find f k).or (StdMap.find m k) := by
  intro f
  induction f with
  | nil => intro m _ hm _; exact ⟨m, rfl, hm, fun k => by simp [StdMap.find]⟩
  | cons x f ih =>
    intro m hf hm hno
    obtain ⟨k, s⟩ := x
    rw [StdMap.sorted_cons] at hf
    have h0 : StdMap.find m k = none := hno (k, s) (by simp)
    have hne : ∀ y ∈ f, y.1 ≠ k := fun y hy => (hf.1 y.1 (List.mem_map.2 ⟨y, hy, rfl⟩)).ne'
    obtain ⟨m', h1, h2, h3⟩ := ih (StdMap.put m k s) hf.2 (StdMap.sorted_put hm k s)
      (fun y hy => by rw [find_put_other hm (hne y hy)]; exact hno y (by simp [hy]))
    refine ⟨m', ?_, h2, ?_⟩
    · rw [moveAll, h0]; exact h1
    · intro k'
      rw [h3 k', StdMap.find_put hm, StdMap.find]
      by_cases c : k' = k
      · subst c
        rw [if_pos rfl, if_pos rfl]
        have : StdMap.find f k' = none := by
          rw [StdMap.find_none]
          intro hk
          exact absurd (hf.1 k' hk) (lt_irrefl _)
        rw [this]; rfl
      · rw [if_neg c, if_neg (fun e => c e.symm)]

example : ∃ m', moveAll [("gal", exDiffuse)] [("vela", exPoint)] = .ok m' ∧
    StdMap.Sorted m' ∧ ∀ k, StdMap.find m' k =
      (StdMap.find [("gal", exDiffuse)] k).or (StdMap.find [("vela", exPoint)] k) :=
  C74_added _ _ (by simp [StdMap.Sorted, StdMap.keys]) (by simp [StdMap.Sorted, StdMap.keys])
    (by simp [StdMap.find])

/-- The first name of the file that the model already has: the sources before it have been
added when reading fails. -/
theorem move_clash : ∀ (pre post m : SrcMap K) (k : String) (s : Src K),
    StdMap.Sorted (pre ++ (k, s) :: post) → StdMap.Sorted m →
    (∀ x ∈ pre, StdMap.find m x.1 = none) → StdMap.find m k ≠ none →
    ∃ m', moveAll (pre ++ (k, s) :: post) m = .throws m' ∧ StdMap.Sorted m' ∧
      ∀ k', StdMap.find m' k' = (StdMap.find pre k').or (StdMap.find m k') := by
  intro pre
  induction pre with
  | nil =>
    intro post m k s _ hm _ hk
    refine ⟨m, ?_, hm, fun k' => by simp [StdMap.find]⟩
    rw [List.nil_append, moveAll]
    cases h : StdMap.find m k with
    | none => exact absurd h hk
    | some a => rfl
  | cons x pre ih =>
    intro post m k s hf hm hno hk
    obtain ⟨kx, sx⟩ := x
    rw [List.cons_append, StdMap.sorted_cons] at hf
    have h0 : StdMap.find m kx = none := hno (kx, sx) (by simp)
    have hne : ∀ y ∈ pre, y.1 ≠ kx := fun y hy =>
      (hf.1 y.1 (List.mem_map.2 ⟨y, List.mem_append_left _ hy, rfl⟩)).ne'
    have hkx : k ≠ kx :=
      (hf.1 k (List.mem_map.2 ⟨(k, s), List.mem_append_right _ (by simp), rfl⟩)).ne'
    obtain ⟨m', h1, h2, h3⟩ := ih post (StdMap.put m kx sx) k s hf.2 (StdMap.sorted_put hm kx sx)
      (fun y hy => by rw [find_put_other hm (hne y hy)]; exact hno y (by simp [hy]))
      (by rw [find_put_other hm hkx]; exact hk)
    refine ⟨m', ?_, h2, ?_⟩
    · rw [List.cons_append, moveAll, h0]; exact h1
    · intro k'
      rw [h3 k', StdMap.find_put hm, StdMap.find]
      by_cases c : k' = kx
      · subst c
        rw [if_pos rfl, if_pos rfl]
        have : StdMap.find pre k' = none := by
          rw [StdMap.find_none]
          intro hk'
          obtain ⟨y, hy, e⟩ := List.mem_map.1 hk'
          exact hne y hy e
        rw [this]; rfl
      · rw [if_neg c, if_neg (fun e => c e.symm)]

/-- **C74**, violated.  Reading a file into a model that already has a source of one of the
names in the file fails, but not without effect: the sources of the file whose names come
before that name are in the model afterwards. -/
theorem C74_clash_violates (E : Env K) (funcLib title : String) (pre post : List (Src K))
    (s q old : Src K) (m : SrcMap K)
    (hs : ((q :: pre ++ s :: post).map Src.name).Pairwise (· < ·))
    (hok : Spec.AllSound E (q :: pre ++ s :: post)) (hm : StdMap.Sorted m)
    (hpre : ∀ x ∈ q :: pre, StdMap.find m x.name = none)
    (hold : StdMap.find m s.name = some old) :
    ∃ m', readXml E true (libNode E funcLib title (q :: pre ++ s :: post)) m = .throws m' ∧
      StdMap.find m' q.name = some (Spec.saved q) ∧ m' ≠ m := by
  have hk : (libNode E funcLib title (q :: pre ++ s :: post)).kids =
    srcNodes E (q :: pre ++ s :: post) := rfl
  have hmap : ∀ l : List (Src K), (Spec.savedAll l).map (fun s => (s.name, s)) =
      l.map (fun s => (s.name, Spec.saved s)) := by
    intro l
    rw [savedAll_eq, List.map_map]
    apply List.map_congr_left
    intro s _
    simp only [Function.comp_apply, name_saved]
  have hadd := addAll_sorted (Spec.savedAll (q :: pre ++ s :: post)) []
    (by rw [savedAll_names]; exact hs) (by simp)
  rw [List.nil_append, hmap, List.map_append, List.map_cons (l := post)] at hadd
  obtain ⟨m', h1, h2, h3⟩ := move_clash ((q :: pre).map (fun s => (s.name, Spec.saved s)))
    (post.map (fun s => (s.name, Spec.saved s))) m s.name (Spec.saved s)
    (by
      simpa [StdMap.Sorted, StdMap.keys, List.map_append, Function.comp_def] using hs)
    hm
    (by
      intro x hx
      obtain ⟨y, hy, rfl⟩ := List.mem_map.1 hx
      exact hpre y hy)
    (by rw [hold]; simp)
  have hq : StdMap.find m' q.name = some (Spec.saved q) := by
    rw [h3 q.name, List.map_cons, StdMap.find, if_pos rfl]; rfl
  refine ⟨m', ?_, hq, ?_⟩
  · rw [readXml, hk, readSrcs_write E _ hok, Res.bind_ok, hadd]
    exact h1
  · intro e
    rw [e, hpre q (by simp)] at hq
    cases hq

example : ∃ m', readXml exEnv true (libNode exEnv "" "t" (exComp :: [exDiffuse] ++ exPoint :: []))
      [("vela", exPoint)] = .throws m' ∧
    StdMap.find m' "all" = some (Spec.saved exComp) ∧ m' ≠ [("vela", exPoint)] :=
  C74_clash_violates exEnv "" "t" [exDiffuse] [] exPoint exComp exPoint _ exSorted exAllOK
    (by simp [StdMap.Sorted, StdMap.keys])
    (by
      intro x hx
      simp only [List.mem_cons, List.not_mem_nil, or_false] at hx
      rcases hx with rfl | rfl <;> rfl)
    rfl

end Verif.Xml
