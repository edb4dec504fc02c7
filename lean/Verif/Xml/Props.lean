import Mathlib.Algebra.Order.Ring.Rat
import Mathlib.Algebra.Field.Rat
import Mathlib.Tactic.NormNum
import Verif.Xml.Lemmas3
/-
C73: a model that is written to a file and read back is the same model.
-/
set_option linter.unusedSectionVars false
set_option linter.unusedSimpArgs false
set_option linter.unusedVariables false
namespace Verif.Xml

variable {K : Type} [Field K] [LinearOrder K]

/-! ### A small environment for the examples -/

/-- Texts of a few numbers. -/
def exFmt (x : ℚ) : String :=
  if x = 1 then "1" else if x = 2 then "2" else if x = 3 then "3" else "0"
/-- The numbers of these texts. -/
def exStod (s : String) : Option ℚ :=
  if s = "0" then some 0 else if s = "1" then some 1 else if s = "2" then some 2
  else if s = "3" then some 3 else none
/-- Three functions are known. -/
def exProto (t : String) : Option (List (Par ℚ)) :=
  if t = "PowerLaw2" then
    some [⟨"Integral", 1, 1, 0, 1, true, 0⟩, ⟨"Index", 1, 1, 0, 1, true, 0⟩]
  else if t = "MapCubeFunction" then some [⟨"Normalization", 1, 1, 0, 1, false, 0⟩]
  else if t = "PiecewisePowerLaw" then some []
  else none
/-- The environment of the examples. -/
def exEnv : Env ℚ := ⟨exFmt, exStod, exProto, id, (0, 3)⟩

/-- A power law with an uncertainty on its norm. -/
def exSpec : Spectrum ℚ :=
  ⟨"PowerLaw2", [⟨"Integral", 2, 1, 0, 3, true, 1⟩, ⟨"Index", 1, 1, 0, 2, false, 0⟩], "", none, []⟩
/-- A piecewise power law with two energies. -/
def exPiece : Spectrum ℚ :=
  ⟨"PiecewisePowerLaw",
   [⟨"IndexL", 1, 1, 0, 3, true, 0⟩, ⟨"IndexH", 2, 1, 0, 3, true, 0⟩,
    ⟨"dNdE0", 1, 2, 0, 3, true, 0⟩, ⟨"dNdE1", 2, 1, 0, 3, true, 0⟩,
    ⟨"Energy0", 1, 2, 0, 3, false, 0⟩, ⟨"Energy1", 3, 1, 0, 3, false, 0⟩],
   "", some "scale.txt", [2, 3]⟩
/-- A diffuse source with a map. -/
def exDiffuse : Src ℚ :=
  .diffuse "gal" exSpec ⟨true, false, true⟩ "MapCubeFunction"
    [⟨"Normalization", 1, 1, 0, 2, false, 0⟩] "cube.fits" true
/-- A point source without energy dispersion. -/
def exPoint : Src ℚ := .point "vela" exPiece ⟨true, true, false⟩ 2 1
/-- A composite source with both inside. -/
def exComp : Src ℚ := .composite "all" exSpec ⟨true, true, true⟩ [exDiffuse, exPoint]

theorem exSurvives : ∀ x : ℚ, (x = 0 ∨ x = 1 ∨ x = 2 ∨ x = 3) → Spec.Survives exEnv x := by
  rintro x (rfl | rfl | rfl | rfl) <;>
    (constructor <;> simp [exEnv, exFmt, exStod])

theorem exParOK : ∀ (n : String) (v s l h : ℚ) (f : Bool) (e : ℚ),
    (v = 0 ∨ v = 1 ∨ v = 2 ∨ v = 3) → (s = 0 ∨ s = 1 ∨ s = 2 ∨ s = 3) →
    (l = 0 ∨ l = 1 ∨ l = 2 ∨ l = 3) → (h = 0 ∨ h = 1 ∨ h = 2 ∨ h = 3) →
    Spec.ParOK exEnv ⟨n, v, s, l, h, f, e⟩ :=
  fun n v s l h f e a b c d => ⟨exSurvives v a, exSurvives s b, exSurvives l c, exSurvives h d⟩

theorem exSpecOK : Spec.SpecOK exEnv exSpec := by
  refine ⟨?_, .inl ⟨by decide, by decide, rfl, _, rfl, by decide, by decide, ?_⟩, .inr (.inr (.inr rfl)),
    by decide⟩
  · intro p hp
    simp only [exSpec, List.mem_cons, List.not_mem_nil, or_false] at hp
    rcases hp with rfl | rfl <;> exact exParOK _ _ _ _ _ _ _ (by simp) (by simp) (by simp) (by simp)
  · intro p hp
    simp only [List.mem_cons, List.not_mem_nil, or_false] at hp
    rcases hp with rfl | rfl <;> rfl

theorem exPieceOK : Spec.SpecOK exEnv exPiece := by
  refine ⟨?_, .inr (.inr ⟨rfl, rfl, ⟨"IndexL", 1, 1, 0, 3, true, 0⟩, ⟨"IndexH", 2, 1, 0, 3, true, 0⟩,
    [⟨"dNdE0", 1, 2, 0, 3, true, 0⟩, ⟨"dNdE1", 2, 1, 0, 3, true, 0⟩],
    [⟨"Energy0", 1, 2, 0, 3, false, 0⟩, ⟨"Energy1", 3, 1, 0, 3, false, 0⟩],
    rfl, rfl, rfl, by unfold Spec.Numbered; decide, by unfold Spec.Numbered; decide, rfl, ?_, ?_⟩),
    .inr (.inr (.inr rfl)), by decide⟩
  · intro p hp
    simp only [exPiece, List.mem_cons, List.not_mem_nil, or_false] at hp
    rcases hp with rfl | rfl | rfl | rfl | rfl | rfl <;>
      exact exParOK _ _ _ _ _ _ _ (by simp) (by simp) (by simp) (by simp)
  · simp [exPiece]
  · simp only [exPiece, List.pairwise_cons, List.mem_singleton, List.not_mem_nil]
    refine ⟨?_, by simp, List.Pairwise.nil⟩
    rintro x rfl; norm_num

theorem exDiffuseOK : Spec.Sound exEnv exDiffuse := by
  refine ⟨exSpecOK, ?_, ⟨_, rfl, rfl, by decide, ?_⟩, .inl ⟨.inr rfl, rfl⟩⟩
  · intro p hp
    simp only [List.mem_cons, List.not_mem_nil, or_false] at hp
    subst hp
    exact exParOK _ _ _ _ _ _ _ (by simp) (by simp) (by simp) (by simp)
  · intro p hp
    simp only [List.mem_cons, List.not_mem_nil, or_false] at hp
    subst hp; rfl

theorem exPointOK : Spec.Sound exEnv exPoint :=
  ⟨exPieceOK, exSurvives 2 (by simp), exSurvives 1 (by simp)⟩

theorem exCompOK : Spec.Sound exEnv exComp :=
  ⟨exSpecOK, by decide, exDiffuseOK, exPointOK, trivial⟩

theorem exAllOK : Spec.AllSound exEnv [exComp, exDiffuse, exPoint] :=
  ⟨exCompOK, exDiffuseOK, exPointOK, trivial⟩

theorem exSorted : (([exComp, exDiffuse, exPoint] : List (Src ℚ)).map Src.name).Pairwise (· < ·) := by
  decide

/-! ### Reading what was written -/

/-- The library read from what was written, for any model. -/
theorem read_lib (E : Env K) (funcLib title : String) (ss : List (Src K))
    (hs : (ss.map Src.name).Pairwise (· < ·)) (hok : Spec.AllSound E ss) :
    readXml E true (libNode E funcLib title ss) [] =
      .ok (ss.map (fun s => (s.name, Spec.saved s))) := by
  have hk : (libNode E funcLib title ss).kids = srcNodes E ss := rfl
  rw [readXml, hk, readSrcs_write E ss hok, Res.bind_ok,
    addAll_sorted (Spec.savedAll ss) [] (by rw [savedAll_names]; exact hs) (by simp)]
  simp only [List.nil_append]
  have he : (Spec.savedAll ss).map (fun s => (s.name, s)) =
      ss.map (fun s => (s.name, Spec.saved s)) := by
    rw [savedAll_eq, List.map_map]
    apply List.map_congr_left
    intro s _
    simp only [Function.comp_apply, name_saved]
  rw [he]
  have := moveAll_sorted (ss.map (fun s => (s.name, Spec.saved s))) []
    (by
      rw [StdMap.Sorted, StdMap.keys, List.map_map]
      exact hs) (by simp)
  rw [this, List.nil_append]

/-- **C73** (partial).  A model of any number of point, diffuse and composite sources, the
latter with any depth of sources inside, that is written to a file and read into an empty
model gives sources with the same names, the same kinds, the same spectra with the same
parameters (values, scales, bounds and which are free), the same spatial parts, the same files
and the same positions.

Missing from the full property: the uncertainties of the parameters and the three switches are
not kept (`C73_flags_violates`, `C73_errors_violates`), the numbers have to be such that their
text with 15 digits gives the same number (see C77), and the functions have to be known to the
factory (`C73_multiple_violates`). -/
theorem C73_roundtrip_partial (E : Env K) (funcLib title : String) (ss : List (Src K))
    (hs : (ss.map Src.name).Pairwise (· < ·)) (hok : Spec.AllSound E ss) :
    readXml E true (libNode E funcLib title ss) [] =
      .ok (ss.map (fun s => (s.name, Spec.saved s))) :=
  read_lib E funcLib title ss hs hok

example : Spec.AllSound exEnv [exComp, exDiffuse, exPoint] ∧
    readXml exEnv true (libNode exEnv "" "my model" [exComp, exDiffuse, exPoint]) [] =
      .ok [("all", Spec.saved exComp), ("gal", Spec.saved exDiffuse), ("vela", Spec.saved exPoint)] :=
  ⟨exAllOK, C73_roundtrip_partial exEnv "" "my model" _ exSorted exAllOK⟩

/-- **C73** (partial).  If no source has a switch off and no parameter has an uncertainty, the
model that is read is exactly the model that was written. -/
theorem C73_exact_partial (E : Env K) (funcLib title : String) (ss : List (Src K))
    (hs : (ss.map Src.name).Pairwise (· < ·)) (hok : Spec.AllSound E ss) (hp : Spec.AllPlain ss) :
    readXml E true (libNode E funcLib title ss) [] = .ok (ss.map (fun s => (s.name, s))) := by
  rw [read_lib E funcLib title ss hs hok]
  have : ∀ s ∈ ss, Spec.saved s = s := by
    intro s hm
    have h := savedAll_plain ss hp
    rw [savedAll_eq] at h
    have h2 : ss.map Spec.saved = ss.map id := by rw [h, List.map_id]
    exact (List.map_inj_left.1 h2) s hm
  congr 1
  apply List.map_congr_left
  intro s hm
  rw [this s hm]

example : Spec.AllSound exEnv [Spec.saved exPoint] ∧ Spec.AllPlain [Spec.saved exPoint] := by
  refine ⟨⟨exPointOK, trivial⟩, ⟨rfl, ?_⟩, trivial⟩
  intro p hp
  obtain ⟨q, _, rfl⟩ := List.mem_map.1 hp
  rfl

mutual
theorem srcNode_saved (E : Env K) : ∀ s : Src K, srcNode E (Spec.saved s) = srcNode E s
  | .point name spec f ra dec => by
    rw [Spec.saved, srcNode, srcNode, spectrumNode_forget]
  | .diffuse name spec f type pars file mapInt => by
    rw [Spec.saved, srcNode, srcNode, spectrumNode_forget, parNode_forget]
  | .composite name spec f ss => by
    rw [Spec.saved, srcNode, srcNode, spectrumNode_forget, srcNodes_saved E ss]
theorem srcNodes_saved (E : Env K) : ∀ ss : List (Src K),
    srcNodes E (Spec.savedAll ss) = srcNodes E ss
  | [] => rfl
  | s :: ss => by rw [Spec.savedAll, srcNodes, srcNodes, srcNode_saved E s, srcNodes_saved E ss]
theorem parNode_forget (E : Env K) : ∀ ps : List (Par K),
    (ps.map Spec.forget).map (parNode E) = ps.map (parNode E)
  | ps => by
    rw [List.map_map]
    apply List.map_congr_left
    intro p _
    rfl
theorem spectrumNode_forget (E : Env K) : ∀ s : Spectrum K,
    spectrumNode E (Spec.forgetSpec s) = spectrumNode E s
  | ⟨t, ps, f, sc, ns⟩ => by
    simp only [spectrumNode, Spec.forgetSpec, parNode_forget]
    rfl
end

/-- **C73** (partial).  Writing the model that was read gives the same file again, element by
element and attribute by attribute. -/
theorem C73_same_file_partial (E : Env K) (funcLib title : String) (ss : List (Src K))
    (hs : (ss.map Src.name).Pairwise (· < ·)) (hok : Spec.AllSound E ss) :
    ∃ m, readXml E true (libNode E funcLib title ss) [] = .ok m ∧
      libNode E funcLib title (m.map Prod.snd) = libNode E funcLib title ss := by
  refine ⟨_, read_lib E funcLib title ss hs hok, ?_⟩
  rw [List.map_map]
  have : ss.map (Prod.snd ∘ fun s => (s.name, Spec.saved s)) = Spec.savedAll ss := by
    rw [savedAll_eq]; rfl
  rw [this, libNode, libNode, srcNodes_saved]

example : ∃ m, readXml exEnv true (libNode exEnv "" "t" [exComp, exDiffuse, exPoint]) [] = .ok m ∧
    libNode exEnv "" "t" (m.map Prod.snd) = libNode exEnv "" "t" [exComp, exDiffuse, exPoint] :=
  C73_same_file_partial exEnv "" "t" _ exSorted exAllOK

/-! ### What is lost -/

theorem find_saved (ss : List (Src K)) (hs : (ss.map Src.name).Pairwise (· < ·)) (s : Src K)
    (hm : s ∈ ss) :
    StdMap.find (ss.map (fun s => (s.name, Spec.saved s))) s.name = some (Spec.saved s) := by
  apply StdMap.find_of_mem
  · rw [StdMap.Sorted, StdMap.keys, List.map_map]; exact hs
  · exact List.mem_map.2 ⟨s, hm, rfl⟩

/-- **C73**, violated.  The switches of a source are not written: a source for which the point
spread function, the exposure or the energy dispersion is switched off has all three on after
the model was written and read. -/
theorem C73_flags_violates (E : Env K) (funcLib title : String) (ss : List (Src K))
    (hs : (ss.map Src.name).Pairwise (· < ·)) (hok : Spec.AllSound E ss) (s : Src K)
    (hm : s ∈ ss) (hf : s.flags.psf = false ∨ s.flags.expo = false ∨ s.flags.edisp = false) :
    ∃ m s', readXml E true (libNode E funcLib title ss) [] = .ok m ∧
      StdMap.find m s.name = some s' ∧ s'.flags = ⟨true, true, true⟩ ∧ s'.flags ≠ s.flags := by
  refine ⟨_, _, read_lib E funcLib title ss hs hok, find_saved ss hs s hm, ?_, ?_⟩
  · cases s <;> rfl
  · intro e
    have h3 : (Spec.saved s).flags = ⟨true, true, true⟩ := by cases s <;> rfl
    rw [h3] at e
    rw [← e] at hf
    simp at hf

example : ∃ m s', readXml exEnv true (libNode exEnv "" "t" [exComp, exDiffuse, exPoint]) [] = .ok m ∧
    StdMap.find m "vela" = some s' ∧ s'.flags = ⟨true, true, true⟩ ∧ s'.flags ≠ exPoint.flags :=
  C73_flags_violates exEnv "" "t" _ exSorted exAllOK exPoint (by simp) (.inr (.inr rfl))

/-- **C73**, violated.  The uncertainties of a fit are not written: a parameter of a spectrum
with an uncertainty has none after the model was written and read. -/
theorem C73_errors_violates (E : Env K) (funcLib title : String) (ss : List (Src K))
    (hs : (ss.map Src.name).Pairwise (· < ·)) (hok : Spec.AllSound E ss) (s : Src K)
    (hm : s ∈ ss) (i : Nat) (p : Par K) (hi : s.spec.pars[i]? = some p) (he : p.err ≠ 0) :
    ∃ m s' p', readXml E true (libNode E funcLib title ss) [] = .ok m ∧
      StdMap.find m s.name = some s' ∧ s'.spec.pars[i]? = some p' ∧ p'.err = 0 ∧ p' ≠ p := by
  have h3 : (Spec.saved s).spec = Spec.forgetSpec s.spec := by cases s <;> rfl
  refine ⟨_, _, Spec.forget p, read_lib E funcLib title ss hs hok, find_saved ss hs s hm, ?_, rfl, ?_⟩
  · rw [h3]
    simp only [Spec.forgetSpec, List.getElem?_map, hi, Option.map_some]
  · intro e
    exact he (by rw [← e]; rfl)

example : ∃ m s' p', readXml exEnv true (libNode exEnv "" "t" [exComp, exDiffuse, exPoint]) [] = .ok m ∧
    StdMap.find m "gal" = some s' ∧ s'.spec.pars[0]? = some p' ∧ p'.err = 0 ∧
      p' ≠ ⟨"Integral", 2, 1, 0, 3, true, 1⟩ :=
  C73_errors_violates exEnv "" "t" _ exSorted exAllOK exDiffuse (by simp) 0 _ rfl (by norm_num)

theorem readSpectrum_unknown (E : Env K) (n : Node) (h : E.proto (attrD n "type" "") = none) :
    readSpectrum E n = .throws := by
  unfold readSpectrum
  simp only [h, Res.bind_throws]

theorem readSrc_badSpectrum (E : Env K) (s : Src K) (h : E.proto s.spec.type = none)
    (hc : ∀ n sp f ms, s ≠ .composite n sp f ms)
    (hd : ∀ n sp f t ps fi mi, s = .diffuse n sp f t ps fi mi → Spec.SpatialOK E t ps fi mi) :
    readSrc E true (srcNode E s) = .throws := by
  have hbad : readSpectrum E (spectrumNode E s.spec) = .throws :=
    readSpectrum_unknown E _ (by rw [spec_type]; exact h)
  cases s with
  | composite n sp f ms => exact absurd rfl (hc n sp f ms)
  | point name spec f ra dec =>
    rw [srcNode, readSrc, kidsOf_first _ _ _ _ "spectrum" rfl (by simp [Node.tag])]
    simp only []
    rw [if_neg (by simp [attrD, attr?, Node.attrs, List.find?]),
      kidsOf_second _ _ _ _ "spatialModel" (by simp [spectrumNode, Node.tag]) rfl]
    rw [readSimple, if_pos ⟨rfl, by simp [attrD, attr?, Node.attrs, List.find?]⟩, readPoint,
      if_neg (by simp [attrD, attr?, Node.attrs, List.find?])]
    simp only [Src.spec] at hbad
    simp only [hbad, Res.bind_throws]
  | diffuse name spec f type pars file mapInt =>
    obtain ⟨hok, ⟨ps, hp, hn, hnd, he⟩, _⟩ := hd _ _ _ _ _ _ _ rfl
    rw [srcNode, readSrc, kidsOf_first _ _ _ _ "spectrum" rfl (by simp [Node.tag])]
    simp only []
    rw [if_neg (by simp [attrD, attr?, Node.attrs, List.find?]),
      kidsOf_second _ _ _ _ "spatialModel" (by simp [spectrumNode, Node.tag]) rfl]
    rw [readSimple, if_neg (by simp [attrD, attr?, Node.attrs, List.find?]),
      if_pos (by simp [attrD, attr?, Node.attrs, List.find?]), readDiffuse]
    simp only [Src.spec] at hbad
    have ht : attrD (Node.mk "spatialModel"
        ([("type", type)] ++ (if type ∈ mapTypes then [("file", file)] else [])
          ++ (if mapInt then [("map_based_integral", "true")] else []))
        (pars.map (parNode E))) "type" "" = type := by simp [attrD, attr?, Node.attrs]
    simp only [ht, hp, kids_pars, Res.bind_ok, setPars_known E pars ps hok hn he hnd, hbad,
      Res.bind_throws]

theorem readSrcs_prefix (E : Env K) (pre post : List (Src K)) (s : Src K)
    (hpre : Spec.AllSound E pre) (hs : readSrc E true (srcNode E s) = .throws) :
    readSrcs E true (srcNodes E (pre ++ s :: post)) = .throws := by
  induction pre with
  | nil =>
    rw [List.nil_append, srcNodes, readSrcs, if_pos (srcNode_tag E s), hs]; rfl
  | cons q pre ih =>
    rw [Spec.AllSound] at hpre
    rw [List.cons_append, srcNodes, readSrcs, if_pos (srcNode_tag E q),
      readSrc_write E q hpre.1, ih hpre.2]
    rfl

/-- **C73**, violated.  A power law with many breaks is written with the type `MultipleBPL`,
but the applications register the function under another name: whatever else is registered
(`others`), the file written from a model with such a source is refused as a whole, and
nothing is read. -/
theorem C73_multiple_violates (E : Env K) (others : List String)
    (hE : ∀ t, (E.proto t).isSome → t ∈ appTypes ∨ t ∈ others) (ho : "MultipleBPL" ∉ others)
    (funcLib title : String) (pre post : List (Src K)) (hpre : Spec.AllSound E pre)
    (name : String) (spec : Spectrum K) (f : Flags) (ra dec : K) (ht : spec.type = "MultipleBPL") :
    readXml E true (libNode E funcLib title (pre ++ .point name spec f ra dec :: post)) [] =
      .throws [] := by
  have hn : E.proto "MultipleBPL" = none := by
    cases hp : E.proto "MultipleBPL" with
    | none => rfl
    | some ps =>
      rcases hE "MultipleBPL" (by rw [hp]; rfl) with h | h
      · exact absurd h (by decide)
      · exact absurd h ho
  have hb := readSrc_badSpectrum E (.point name spec f ra dec) (by simp only [Src.spec, ht, hn])
    (by intro _ _ _ _ h; cases h) (by intro _ _ _ _ _ _ _ h; cases h)
  have hk : (libNode E funcLib title (pre ++ .point name spec f ra dec :: post)).kids =
      srcNodes E (pre ++ .point name spec f ra dec :: post) := rfl
  rw [readXml, hk, readSrcs_prefix E pre post _ hpre hb]
  rfl

/-- **C73**, violated.  Nor can the function be given under the name it is registered with: it
is created without parameters, they are only added for the other name, and every spectrum
element with a parameter is refused. -/
theorem C73_registered_violates (E : Env K) (hE : E.proto "MultipleBrokenPowerLaw" = some [])
    (n p : Node) (ps : List Node) (ht : attrD n "type" "" = "MultipleBrokenPowerLaw")
    (hp : kidsOf n "parameter" = p :: ps) : readSpectrum E n = .throws := by
  unfold readSpectrum
  simp only [ht, hE, hp, Res.bind_ok]
  have hs : special E "MultipleBrokenPowerLaw" (p :: ps) ([] : List (Par K)) = .ok ([], []) := by
    rw [special, if_neg (by decide), if_neg (by decide)]
  rw [hs, Res.bind_ok, setPars, setPar]
  rfl

/-- The application's registered functions, as an environment for the examples. -/
def appEnv : Env ℚ :=
  { exEnv with proto := fun t => if t ∈ appTypes then some ((exProto t).getD []) else none }

/-- A power law with many breaks. -/
def exMulti : Spectrum ℚ :=
  ⟨"MultipleBPL", [⟨"Normalization", 1, 1, 0, 3, true, 0⟩, ⟨"Index0", 2, 1, 0, 3, true, 0⟩,
    ⟨"Index1", 3, 1, 0, 3, true, 0⟩, ⟨"Break0", 2, 1, 0, 3, false, 0⟩], "", none, [2]⟩

example : readXml appEnv true (libNode appEnv "" "t"
    ([] ++ .point "crab" exMulti ⟨true, true, true⟩ 1 2 :: [])) [] = .throws [] :=
  C73_multiple_violates appEnv [] (by
    intro t h
    left
    simp only [appEnv] at h
    by_contra hc
    rw [if_neg hc] at h
    simp at h) (by simp) "" "t" [] [] trivial "crab" exMulti ⟨true, true, true⟩ 1 2 rfl

example : readSpectrum appEnv (.mk "spectrum" [("type", "MultipleBrokenPowerLaw")]
    [parNode appEnv ⟨"Normalization", 1, 1, 0, 3, true, 0⟩]) = .throws :=
  C73_registered_violates appEnv (by rfl) _ _ [] (by rfl) (by rfl)

end Verif.Xml
