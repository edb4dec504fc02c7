import Verif.Xml.Lemmas2
/-
Lemmas for writing and reading models: whole sources and lists of sources.
-/
set_option linter.unusedSectionVars false
set_option linter.unusedSimpArgs false
set_option linter.unusedVariables false
namespace Verif.Xml

variable {K : Type} [Field K] [LinearOrder K]

/-! ### Attributes of the elements written -/

theorem spec_type (E : Env K) (s : Spectrum K) : attrD (spectrumNode E s) "type" "" = s.type := by
  simp [attrD, attr?, spectrumNode, Node.attrs]

theorem spec_file (E : Env K) (s : Spectrum K) (h : s.type ∈ fileTypes) :
    attrD (spectrumNode E s) "file" "" = s.file := by
  simp [attrD, attr?, spectrumNode, Node.attrs, h, List.find?]

theorem spec_scaling (E : Env K) (s : Spectrum K) :
    attrD (spectrumNode E s) "scaling_file" "" = s.scaling.getD "" := by
  simp only [attrD, attr?, spectrumNode, Node.attrs]
  cases s.scaling <;> by_cases h : s.type ∈ fileTypes <;> simp [h, List.find?]

theorem spec_edisp (E : Env K) (s : Spectrum K) :
    attrD (spectrumNode E s) "apply_edisp" "" = "" := by
  simp only [attrD, attr?, spectrumNode, Node.attrs]
  cases s.scaling <;> by_cases h : s.type ∈ fileTypes <;> simp [h, List.find?]

theorem flag_missing {n : Node} {a : String} (h : attrD n a "" = "") : flagAttr n a = .ok true := by
  rw [flagAttr, h]; rfl

theorem mem_fileTypes (t : String) : t ∈ fileTypes ↔
    t = "DMFitFunction" ∨ t = "FileFunction" ∨ t = "ScaleFactor::FileFunction" := by
  simp [fileTypes]

/-- A spectrum is read as it was written, without the uncertainties. -/
theorem readSpectrum_write (E : Env K) (s : Spectrum K) (h : Spec.SpecOK E s) :
    readSpectrum E (spectrumNode E s) = .ok (Spec.forgetSpec s, true) := by
  obtain ⟨hok, hsh, hf, hsc⟩ := h
  obtain ⟨ps, qs, hp, hs, hn, hnd, he⟩ := special_spec E s hok hsh
  have hkids : kidsOf (spectrumNode E s) "parameter" = s.pars.map (parNode E) := kids_pars _ _ _ _
  have hfile : (if s.type ∈ fileTypes then attrD (spectrumNode E s) "file" "" else "") = s.file := by
    by_cases c : s.type ∈ fileTypes
    · rw [if_pos c, spec_file E s c]
    · rw [if_neg c]
      rcases hf with h | h | h | h
      · exact absurd ((mem_fileTypes _).2 (.inl h)) c
      · exact absurd ((mem_fileTypes _).2 (.inr (.inl h))) c
      · exact absurd ((mem_fileTypes _).2 (.inr (.inr h))) c
      · exact h.symm
  have hscal : (if s.scaling.getD "" = "" then none else some (s.scaling.getD "")) = s.scaling := by
    cases hc : s.scaling with
    | none => rfl
    | some f =>
      rw [Option.getD_some, if_neg]
      intro e; exact hsc (by rw [hc, e])
  unfold readSpectrum
  simp only [spec_type, hp, hkids, hs, Res.bind_ok, setPars_known E s.pars qs hok hn he hnd,
    hfile, spec_scaling, hscal, flag_missing (spec_edisp E s), Res.pure_eq]
  rfl

theorem num_pos (E : Env K) (ra dec : K) (hra : Spec.Survives E ra) (hdec : Spec.Survives E dec)
    (a b : K) : readPos E ((posPars ra dec).map (parNode E)) (a, b) = (ra, dec) := by
  simp only [posPars, List.map_cons, List.map_nil, readPos, par_name]
  rw [num_value E _ 0 hdec, num_value E _ 0 hra]
  rfl

theorem readPoint_write (E : Env K) (name : String) (s : Spectrum K) (ra dec : K)
    (hs : Spec.SpecOK E s) (hra : Spec.Survives E ra) (hdec : Spec.Survives E dec) :
    readPoint E name (spectrumNode E s)
      (.mk "spatialModel" [("type", "SkyDirFunction")] ((posPars ra dec).map (parNode E))) =
      .ok (.point name (Spec.forgetSpec s) ⟨true, true, true⟩ ra dec) := by
  have ht : attrD (.mk "spatialModel" [("type", "SkyDirFunction")]
      ((posPars ra dec).map (parNode E))) "type" "" = "SkyDirFunction" := by
    simp [attrD, attr?, Node.attrs]
  have h1 : attrD (.mk "spatialModel" [("type", "SkyDirFunction")]
      ((posPars ra dec).map (parNode E))) "apply_psf" "" = "" := by
    simp [attrD, attr?, Node.attrs]
  have h2 : attrD (.mk "spatialModel" [("type", "SkyDirFunction")]
      ((posPars ra dec).map (parNode E))) "apply_exposure" "" = "" := by
    simp [attrD, attr?, Node.attrs]
  rw [readPoint, if_neg (by rw [ht]; simp), kids_pars, num_pos E ra dec hra hdec]
  simp only [readSpectrum_write E s hs, flag_missing h1, flag_missing h2, Res.bind_ok, Res.pure_eq]

theorem mem_mapTypes (t : String) : t ∈ mapTypes ↔
    t = "SpatialMap" ∨ t = "MapCubeFunction" ∨ t = "RadialProfile" := by
  simp [mapTypes]

/-- The element of the spatial part of a diffuse source. -/
theorem readDiffuse_write (E : Env K) (name : String) (s : Spectrum K) (type : String)
    (pars : List (Par K)) (file : String) (mapInt : Bool) (hs : Spec.SpecOK E s)
    (hd : Spec.SpatialOK E type pars file mapInt) :
    readDiffuse E name (spectrumNode E s)
      (.mk "spatialModel"
        ([("type", type)] ++ (if type ∈ mapTypes then [("file", file)] else [])
          ++ (if mapInt then [("map_based_integral", "true")] else []))
        (pars.map (parNode E))) =
      .ok (.diffuse name (Spec.forgetSpec s) ⟨true, true, true⟩ type (pars.map Spec.forget) file
        mapInt) := by
  obtain ⟨hok, ⟨ps, hp, hn, hnd, he⟩, hfile⟩ := hd
  generalize hN : (Node.mk "spatialModel"
        ([("type", type)] ++ (if type ∈ mapTypes then [("file", file)] else [])
          ++ (if mapInt then [("map_based_integral", "true")] else []))
        (pars.map (parNode E))) = n
  have hk : kidsOf n "parameter" = pars.map (parNode E) := by rw [← hN]; exact kids_pars _ _ _ _
  have ht : attrD n "type" "" = type := by rw [← hN]; simp [attrD, attr?, Node.attrs]
  have h1 : attrD n "apply_psf" "" = "" := by
    rw [← hN]
    by_cases c : type ∈ mapTypes <;> cases mapInt <;>
      simp [attrD, attr?, Node.attrs, c, List.find?]
  have h2 : attrD n "apply_exposure" "" = "" := by
    rw [← hN]
    by_cases c : type ∈ mapTypes <;> cases mapInt <;>
      simp [attrD, attr?, Node.attrs, c, List.find?]
  have h3 : attrD n "map_based_integral" "" = if mapInt then "true" else "" := by
    rw [← hN]
    by_cases c : type ∈ mapTypes <;> cases mapInt <;>
      simp [attrD, attr?, Node.attrs, c, List.find?]
  have h4 : type ∈ mapTypes → attrD n "file" "" = file := by
    intro c
    rw [← hN]
    cases mapInt <;> simp [attrD, attr?, Node.attrs, c, List.find?]
  have hF : spatialFile E type n = file := by
    unfold spatialFile
    by_cases c : type ∈ mapTypes
    · rw [if_pos c, h4 c]
      rcases hfile with ⟨_, h⟩ | ⟨_, h, _⟩ | ⟨a, b, d, _⟩
      · exact h
      · exact h
      · rcases (mem_mapTypes _).1 c with e | e | e
        · exact absurd e a
        · exact absurd e b
        · exact absurd e d
    · rw [if_neg c]
      rcases hfile with ⟨h | h, _⟩ | ⟨h, _, _⟩ | ⟨_, _, _, h, _⟩
      · exact absurd ((mem_mapTypes _).2 (.inl h)) c
      · exact absurd ((mem_mapTypes _).2 (.inr (.inl h))) c
      · exact absurd ((mem_mapTypes _).2 (.inr (.inr h))) c
      · exact h.symm
  have hM : spatialMapInt type n = mapInt := by
    unfold spatialMapInt
    rw [h3]
    rcases hfile with ⟨h | h, _⟩ | ⟨_, _, h⟩ | ⟨_, _, _, _, h⟩
    · rw [h]; cases mapInt <;> rfl
    · rw [h]; cases mapInt <;> rfl
    · rw [h]; simp
    · rw [h]; simp
  unfold readDiffuse
  simp only [ht, hp, hk, Res.bind_ok, setPars_known E pars ps hok hn he hnd,
    readSpectrum_write E s hs, flag_missing h1, flag_missing h2, Res.pure_eq, hF, hM]

/-! ### Maps of sources -/

/-- Sources whose names increase are put one after the other at the end of the map. -/
theorem put_last {α : Type} {m : List (String × α)} {k : String} {a : α}
    (h : ∀ x ∈ m, x.1 < k) : StdMap.put m k a = m ++ [(k, a)] := by
  induction m with
  | nil => rfl
  | cons x m ih =>
    obtain ⟨k', a'⟩ := x
    have hk : k' < k := h (k', a') (by simp)
    rw [StdMap.put, if_neg (not_lt.2 hk.le), if_neg (ne_of_gt hk),
      ih (fun x hx => h x (by simp [hx]))]
    rfl

theorem find_last {α : Type} {m : List (String × α)} {k : String}
    (h : ∀ x ∈ m, x.1 < k) : StdMap.find m k = none := by
  rw [StdMap.find_none]
  intro hk
  obtain ⟨x, hx, e⟩ := List.mem_map.1 hk
  exact absurd (h x hx) (by rw [e]; exact lt_irrefl _)

theorem addAll_sorted : ∀ (ss : List (Src K)) (m : SrcMap K),
    (ss.map Src.name).Pairwise (· < ·) → (∀ x ∈ m, ∀ s ∈ ss, x.1 < s.name) →
    addAll ss m = .ok (m ++ ss.map (fun s => (s.name, s))) := by
  intro ss
  induction ss with
  | nil => intro m _ _; simp [addAll]
  | cons s ss ih =>
    intro m hp hm
    rw [List.map_cons, List.pairwise_cons] at hp
    have hlt : ∀ x ∈ m, x.1 < s.name := fun x hx => hm x hx s (by simp)
    rw [addAll, find_last hlt, put_last hlt]
    simp only []
    rw [ih (m ++ [(s.name, s)]) hp.2]
    · simp
    · intro x hx t ht
      rcases List.mem_append.1 hx with h | h
      · exact hm x h t (by simp [ht])
      · rw [List.mem_singleton] at h
        subst h
        exact hp.1 t.name (List.mem_map.2 ⟨t, ht, rfl⟩)

theorem moveAll_sorted : ∀ (ss m : SrcMap K), StdMap.Sorted ss →
    (∀ x ∈ m, ∀ y ∈ ss, x.1 < y.1) → moveAll ss m = .ok (m ++ ss) := by
  intro ss
  induction ss with
  | nil => intro m _ _; simp [moveAll]
  | cons y ss ih =>
    intro m hs hm
    obtain ⟨k, s⟩ := y
    rw [StdMap.sorted_cons] at hs
    have hlt : ∀ x ∈ m, x.1 < k := fun x hx => hm x hx (k, s) (by simp)
    rw [moveAll, find_last hlt, put_last hlt]
    simp only []
    rw [ih (m ++ [(k, s)]) hs.2]
    · simp
    · intro x hx y hy
      rcases List.mem_append.1 hx with h | h
      · exact hm x h y (by simp [hy])
      · rw [List.mem_singleton] at h
        subst h
        exact hs.1 y.1 (List.mem_map.2 ⟨y, hy, rfl⟩)

/-! ### Sources -/

mutual
theorem name_saved : ∀ s : Src K, (Spec.saved s).name = s.name
  | .point _ _ _ _ _ => rfl
  | .diffuse _ _ _ _ _ _ _ => rfl
  | .composite _ _ _ _ => rfl
end

theorem savedAll_eq : ∀ ss : List (Src K), Spec.savedAll ss = ss.map Spec.saved
  | [] => rfl
  | s :: ss => by rw [Spec.savedAll, savedAll_eq ss]; rfl

theorem savedAll_names (ss : List (Src K)) :
    (Spec.savedAll ss).map Src.name = ss.map Src.name := by
  rw [savedAll_eq, List.map_map]
  apply List.map_congr_left
  intro s _
  exact name_saved s

theorem srcNode_tag (E : Env K) : ∀ s : Src K, (srcNode E s).tag = "source"
  | .point _ _ _ _ _ => by rw [srcNode]; rfl
  | .diffuse _ _ _ _ _ _ _ => by rw [srcNode]; rfl
  | .composite _ _ _ _ => by rw [srcNode]; rfl

theorem kidsOf_first (tag : String) (attrs : List (String × String)) (a b : Node) (t : String)
    (ha : a.tag = t) (hb : b.tag ≠ t) : kidsOf (.mk tag attrs [a, b]) t = [a] := by
  simp [kidsOf, Node.kids, List.filter_cons, ha, hb]

theorem kidsOf_second (tag : String) (attrs : List (String × String)) (a b : Node) (t : String)
    (ha : a.tag ≠ t) (hb : b.tag = t) : kidsOf (.mk tag attrs [a, b]) t = [b] := by
  simp [kidsOf, Node.kids, List.filter_cons, ha, hb]

mutual
/-- A source is read as it was written, except for the uncertainties and the switches. -/
theorem readSrc_write (E : Env K) : ∀ s : Src K, Spec.Sound E s →
    readSrc E true (srcNode E s) = .ok (some (Spec.saved s))
  | .point name spec f ra dec, h => by
    rw [Spec.Sound] at h
    rw [srcNode, readSrc, kidsOf_first _ _ _ _ "spectrum" rfl (by simp [Node.tag])]
    simp only []
    rw [if_neg (by simp [attrD, attr?, Node.attrs, List.find?]),
      kidsOf_second _ _ _ _ "spatialModel" (by simp [spectrumNode, Node.tag]) rfl]
    have hn : attrD (Node.mk "source" [("name", name), ("type", "PointSource")]
      [spectrumNode E spec,
       .mk "spatialModel" [("type", "SkyDirFunction")] ((posPars ra dec).map (parNode E))])
       "name" "" = name := by simp [attrD, attr?, Node.attrs]
    have ht : attrD (Node.mk "source" [("name", name), ("type", "PointSource")]
      [spectrumNode E spec,
       .mk "spatialModel" [("type", "SkyDirFunction")] ((posPars ra dec).map (parNode E))])
       "type" "" = "PointSource" := by simp [attrD, attr?, Node.attrs, List.find?]
    rw [hn, ht, readSimple, if_pos ⟨rfl, rfl⟩, readPoint_write E name spec ra dec h.1 h.2.1 h.2.2]
    rfl
  | .diffuse name spec f type pars file mapInt, h => by
    rw [Spec.Sound] at h
    rw [srcNode, readSrc, kidsOf_first _ _ _ _ "spectrum" rfl (by simp [Node.tag])]
    simp only []
    rw [if_neg (by simp [attrD, attr?, Node.attrs, List.find?]),
      kidsOf_second _ _ _ _ "spatialModel" (by simp [spectrumNode, Node.tag]) rfl]
    generalize hsp : (Node.mk "spatialModel"
        ([("type", type)] ++ (if type ∈ mapTypes then [("file", file)] else [])
          ++ (if mapInt then [("map_based_integral", "true")] else []))
        (pars.map (parNode E))) = sp
    have hn : attrD (Node.mk "source" [("name", name), ("type", "DiffuseSource")]
      [spectrumNode E spec, sp]) "name" "" = name := by simp [attrD, attr?, Node.attrs]
    have ht : attrD (Node.mk "source" [("name", name), ("type", "DiffuseSource")]
      [spectrumNode E spec, sp]) "type" "" = "DiffuseSource" := by
      simp [attrD, attr?, Node.attrs, List.find?]
    rw [hn, ht, readSimple, if_neg (by simp), if_pos rfl, ← hsp,
      readDiffuse_write E name spec type pars file mapInt h.1 h.2]
    rfl
  | .composite name spec f ss, h => by
    rw [Spec.Sound] at h
    rw [srcNode, readSrc, kidsOf_first _ _ _ _ "spectrum" rfl (by simp [Node.tag])]
    simp only []
    rw [if_pos (by simp [attrD, attr?, Node.attrs, List.find?])]
    have hl : readLibs E true [spectrumNode E spec, .mk "source_library" [] (srcNodes E ss)] =
        [.ok (Spec.savedAll ss)] := by
      rw [show spectrumNode E spec = .mk "spectrum" (spectrumNode E spec).attrs
        (spectrumNode E spec).kids from rfl, readLibs, if_neg (by decide), readLibs, if_pos rfl,
        readLibs, readSrcs_write E ss h.2.2]
    rw [hl]
    have hn : attrD (Node.mk "source" [("name", name), ("type", "CompositeSource")]
      [spectrumNode E spec, .mk "source_library" [] (srcNodes E ss)]) "name" "" = name := by
      simp [attrD, attr?, Node.attrs]
    simp only [Res.bind_ok, hn]
    rw [mkComposite, addAll_sorted (Spec.savedAll ss) []
      (by rw [savedAll_names]; exact h.2.1) (by simp)]
    simp only [Res.bind_ok, readSpectrum_write E spec h.1, Res.pure_eq, Spec.saved, List.nil_append,
      List.map_map]
    congr 3
    exact List.map_id _
/-- Sources are read as they were written. -/
theorem readSrcs_write (E : Env K) : ∀ ss : List (Src K), Spec.AllSound E ss →
    readSrcs E true (srcNodes E ss) = .ok (Spec.savedAll ss)
  | [], _ => by rw [srcNodes, readSrcs]; rfl
  | s :: ss, h => by
    rw [Spec.AllSound] at h
    rw [srcNodes, readSrcs, if_pos (srcNode_tag E s), readSrc_write E s h.1,
      readSrcs_write E ss h.2]
    rfl
end

mutual
theorem saved_plain : ∀ s : Src K, Spec.Plain s → Spec.saved s = s
  | .point name spec f ra dec, h => by
    rw [Spec.Plain] at h
    obtain ⟨rfl, he⟩ := h
    rw [Spec.saved, forgetSpec_plain spec he]
  | .diffuse name spec f type pars file mapInt, h => by
    rw [Spec.Plain] at h
    obtain ⟨rfl, he, hp⟩ := h
    rw [Spec.saved, forgetSpec_plain spec he, forget_plain pars hp]
  | .composite name spec f ss, h => by
    rw [Spec.Plain] at h
    obtain ⟨rfl, he, hp⟩ := h
    rw [Spec.saved, forgetSpec_plain spec he, savedAll_plain ss hp]
theorem savedAll_plain : ∀ ss : List (Src K), Spec.AllPlain ss → Spec.savedAll ss = ss
  | [], _ => rfl
  | s :: ss, h => by
    rw [Spec.AllPlain] at h
    rw [Spec.savedAll, saved_plain s h.1, savedAll_plain ss h.2]
theorem forget_plain : ∀ ps : List (Par K), (∀ p ∈ ps, p.err = 0) → ps.map Spec.forget = ps
  | [], _ => rfl
  | p :: ps, h => by
    rw [List.map_cons, forget_plain ps (fun q hq => h q (by simp [hq]))]
    have : Spec.forget p = p := by
      have := h p (by simp)
      obtain ⟨n, v, s, lo, hi, f, e⟩ := p
      simp only at this
      subst this
      rfl
    rw [this]
theorem forgetSpec_plain : ∀ s : Spectrum K, (∀ p ∈ s.pars, p.err = 0) → Spec.forgetSpec s = s
  | ⟨t, ps, f, sc, ns⟩, h => by
    rw [Spec.forgetSpec]
    simp only at h ⊢
    rw [forget_plain ps h]
end

end Verif.Xml
