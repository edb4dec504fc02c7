import Verif.Xml.TextLemmas
import Verif.Xml.Props
/-
C76: the text of a model file says what the model is.
-/
set_option linter.unusedSectionVars false
set_option linter.unusedSimpArgs false
set_option linter.unusedVariables false
namespace Verif.Xml

theorem afterProlog_print (cs : List Char) : afterProlog (prolog ++ cs) = '\n' :: cs := by
  have : prolog = '<' :: '?' :: ("xml version=\"1.0\" standalone=\"no\"?>".toList ++ ['\n']) := by
    rfl
  rw [this, List.cons_append, List.cons_append, afterProlog, List.append_assoc]
  exact (takeWhile_stop (fun c => c != '\n') '\n' cs rfl _ (by decide)).2

/-- **C76** (partial).  What is printed is what is read: if no value in the elements has a
quotation mark or an ampersand in it, the text of the file is read as the same elements with
the same attributes in the same order, whatever their number and depth.

Missing: values with quotation marks (`C76_quote_violates`) or with what looks like a character
reference (`C76_reference_violates`) are printed as they are. -/
theorem C76_text_partial (n : Node) (hc : Spec.Clean n) : readFile (printFile n) = some n := by
  unfold readFile printFile
  rw [afterProlog_print]
  have h1 := steps_le n 0 hc
  have h2 : (prolog ++ printNode 0 n).length + 1 = ((prolog ++ printNode 0 n).length) + 1 := rfl
  have h3 : readNode ((prolog ++ printNode 0 n).length + 1) ('\n' :: printNode 0 n) =
      some (n, ['\n']) := by
    have := readNode_print n 0 ((prolog ++ printNode 0 n).length + 1) [] hc
      (by rw [List.length_append]; omega)
    rw [List.append_nil] at this
    rw [← readNode_skip] at this ⊢
    exact this
  rw [h3]
  rfl

/-- Elements for the example. -/
def exNode : Node :=
  .mk "source_library" [("title", "source library")]
    [.mk "source" [("name", "3C 279 <core>"), ("type", "PointSource")]
      [.mk "spectrum" [] [.mk "parameter" [("name", "Index")] []], .mk "spatialModel" [] []]]

theorem exNodeClean : Spec.Clean exNode := by
  simp only [exNode, Spec.Clean, Spec.AllClean]
  refine ⟨by decide, by decide, ⟨by decide, by decide, ⟨by decide, by simp, ⟨by decide, by decide,
    trivial⟩, trivial⟩, ⟨by decide, by simp, trivial⟩, trivial⟩, trivial⟩

example : readFile (printFile exNode) = some exNode := C76_text_partial exNode exNodeClean

/-- **C76** (partial).  Different elements have different texts. -/
theorem C76_distinct_partial (n m : Node) (hn : Spec.Clean n) (hm : Spec.Clean m)
    (h : printFile n = printFile m) : n = m := by
  have h1 := C76_text_partial n hn
  rw [h, C76_text_partial m hm] at h1
  exact (Option.some.inj h1).symm

example : printFile exNode ≠ printFile (.mk "source_library" [("title", "source library")] []) := by
  intro h
  have := C76_distinct_partial _ _ exNodeClean (by
    simp only [Spec.Clean, Spec.AllClean, Spec.NameOK, Spec.ValueOK]; decide) h
  simp [exNode] at this

/-- **C76**, violated.  A quotation mark in a value is not protected, so that different elements
have the same text: one attribute whose value contains `" m="` and two attributes.  No reader
can tell them apart. -/
theorem C76_quote_violates (tag n v m w : String) (ks : List Node) :
    printFile (.mk tag [(n, v ++ "\" " ++ m ++ "=\"" ++ w)] ks) = printFile (.mk tag [(n, v), (m, w)] ks) ∧
    (Node.mk tag [(n, v ++ "\" " ++ m ++ "=\"" ++ w)] ks) ≠ .mk tag [(n, v), (m, w)] ks := by
  constructor
  · unfold printFile
    rw [printNode, printNode, printAttrs, printAttrs, printAttrs, printAttrs]
    simp only [String.toList_append, List.append_assoc, List.cons_append]
    rfl
  · intro h
    simp at h

example : readFile (printFile (.mk "source" [("name", "a\" type=\"b")] [])) =
    some (.mk "source" [("name", "a"), ("type", "b")] []) := by
  have h := (C76_quote_violates "source" "name" "a" "type" "b" []).1
  rw [show "a" ++ "\" " ++ "type" ++ "=\"" ++ "b" = "a\" type=\"b" from by decide] at h
  rw [h]
  exact C76_text_partial _ (by
    simp only [Spec.Clean, Spec.AllClean, Spec.NameOK, Spec.ValueOK]; decide)

/-- **C76**, violated.  A value with the characters of a reference, here `&lt;`, comes back with
the character it stands for. -/
theorem C76_reference_violates (tag n v : String) (ht : Spec.NameOK tag) (hn : Spec.NameOK n)
    (hv : Spec.ValueOK v) :
    readFile (printFile (.mk tag [(n, "&lt;" ++ v)] [])) = some (.mk tag [(n, "<" ++ v)] []) := by
  obtain ⟨c, cs, hcs, hb, -⟩ := name_blank hn
  obtain ⟨c', cs', hcs', hb', -⟩ := name_blank ht
  unfold readFile printFile
  rw [afterProlog_print]
  generalize hL : (prolog ++ printNode 0 (Node.mk tag [(n, "&lt;" ++ v)] [])).length = L
  have hL2 : 2 ≤ L := by
    rw [← hL, List.length_append]
    have : 2 ≤ prolog.length := by decide
    omega
  obtain ⟨g, rfl⟩ : ∃ g, L = g + 2 := ⟨L - 2, by omega⟩
  have htext : printNode 0 (Node.mk tag [(n, "&lt;" ++ v)] []) =
      '<' :: (tag.toList ++ ' ' :: (n.toList ++ '=' :: '"' :: ("&lt;".toList ++ v.toList ++
        '"' :: ['/', '>', '\n']))) := by
    rw [printNode, printAttrs, printAttrs, printKids, String.toList_append]; simp
  have hsk : skip ('\n' :: printNode 0 (Node.mk tag [(n, "&lt;" ++ v)] [])) =
      printNode 0 (Node.mk tag [(n, "&lt;" ++ v)] []) := by
    rw [htext]; rfl
  have hattr : readAttrs (g + 1 + 1) (' ' :: (n.toList ++ '=' :: '"' :: ("&lt;".toList ++ v.toList ++
        '"' :: ['/', '>', '\n']))) = some ([(n, "<" ++ v)], ['/', '>', '\n']) := by
    have hskip : skip (' ' :: (n.toList ++ '=' :: '"' :: ("&lt;".toList ++ v.toList ++
        '"' :: ['/', '>', '\n']))) = n.toList ++ '=' :: '"' :: ("&lt;".toList ++ v.toList ++
        '"' :: ['/', '>', '\n']) := by
      rw [hcs]; exact skip_blanks 1 c hb _
    rw [readAttrs, hskip, span_eq]
    obtain ⟨h1, h2⟩ := takeWhile_stop isNameChar '='
      ('"' :: ("&lt;".toList ++ v.toList ++ '"' :: ['/', '>', '\n'])) rfl n.toList
      (fun x hx => nameChar_ok (hn.2 x hx))
    rw [h1, h2, hcs]
    simp only []
    obtain ⟨h3, h4⟩ := takeWhile_stop (fun c => c != '"') '"' ['/', '>', '\n'] rfl
      ("&lt;".toList ++ v.toList) (fun x hx => by
        have : x ≠ '"' := by
          rcases List.mem_append.1 hx with hx | hx
          · intro e; rw [e] at hx; revert hx; decide
          · exact fun e => hv.1 (e ▸ hx)
        simpa using this)
    rw [span_eq, h3, h4]
    simp only []
    have hend : readAttrs (g + 1) ['/', '>', '\n'] = some ([], ['/', '>', '\n']) :=
      readAttrs_print '/' ['>', '\n'] (Or.inl rfl) [] (g + 1) (by simp) (by simp)
    rw [hend]
    simp only []
    have hexp : expandRefs ("&lt;".toList ++ v.toList).length ("&lt;".toList ++ v.toList) =
        '<' :: v.toList := by
      have hl : ("&lt;".toList ++ v.toList).length = (v.toList.length + 3) + 1 := by
        rw [List.length_append]
        show 4 + v.toList.length = _
        omega
      have hcons : "&lt;".toList ++ v.toList = '&' :: 'l' :: 't' :: ';' :: v.toList := rfl
      rw [hl, hcons, expandRefs]
      have hfind : entities.find? (fun e => e.1.isPrefixOf ('&' :: 'l' :: 't' :: ';' :: v.toList)) =
          some ("&lt;".toList, '<') := by
        simp [entities, List.find?, List.isPrefixOf]
      rw [hfind]
      simp only []
      rw [show ('&' :: 'l' :: 't' :: ';' :: v.toList).drop "&lt;".toList.length = v.toList from rfl,
        expand_clean _ _ hv.2]
    rw [hexp, ← hcs, String.ofList_toList]
    have hlt : String.ofList ('<' :: v.toList) = "<" ++ v := by
      rw [← String.toList_inj, String.toList_ofList, String.toList_append]
      rfl
    rw [hlt]
  have hnode : readNode (g + 2 + 1) ('\n' :: printNode 0 (Node.mk tag [(n, "&lt;" ++ v)] [])) =
      some (.mk tag [(n, "<" ++ v)] [], ['\n']) := by
    rw [← readNode_skip, hsk, readNode, htext, skip_cons '<' rfl]
    simp only []
    obtain ⟨h1, h2⟩ := takeWhile_stop isNameChar ' ' (n.toList ++ '=' :: '"' :: ("&lt;".toList ++
      v.toList ++ '"' :: ['/', '>', '\n'])) rfl tag.toList (fun x hx => nameChar_ok (ht.2 x hx))
    rw [h1, h2, hattr, String.ofList_toList]
    rfl
  rw [hnode]
  rfl

example : Spec.NameOK "source" ∧ Spec.NameOK "name" ∧ Spec.ValueOK "1FGL J0007.0+7303" := by
  simp only [Spec.NameOK, Spec.ValueOK]; decide

/-! ### The elements of a model -/

section Model
variable {K : Type} [Field K] [LinearOrder K]

theorem parNode_clean (E : Env K) (hfmt : ∀ x, Spec.ValueOK (E.fmt x)) (p : Par K)
    (hp : Spec.ParText p) : Spec.Clean (parNode E p) := by
  rw [parNode, Spec.Clean]
  refine ⟨by decide, ?_, trivial⟩
  intro a ha
  simp only [List.mem_cons, List.not_mem_nil, or_false] at ha
  rcases ha with rfl | rfl | rfl | rfl | rfl | rfl
  · exact ⟨by dsimp only; decide, hp⟩
  · exact ⟨by dsimp only; decide, hfmt _⟩
  · exact ⟨by dsimp only; decide, hfmt _⟩
  · exact ⟨by dsimp only; decide, hfmt _⟩
  · exact ⟨by dsimp only; decide, hfmt _⟩
  · refine ⟨by dsimp only; decide, ?_⟩
    cases p.free <;> (simp only [flagText]; decide)

theorem parNodes_clean (E : Env K) (hfmt : ∀ x, Spec.ValueOK (E.fmt x)) : ∀ ps : List (Par K),
    (∀ p ∈ ps, Spec.ParText p) → Spec.AllClean (ps.map (parNode E))
  | [], _ => trivial
  | p :: ps, h => ⟨parNode_clean E hfmt p (h p (by simp)),
      parNodes_clean E hfmt ps (fun q hq => h q (by simp [hq]))⟩

theorem spectrumNode_clean (E : Env K) (hfmt : ∀ x, Spec.ValueOK (E.fmt x)) (s : Spectrum K)
    (h : Spec.SpecText s) : Spec.Clean (spectrumNode E s) := by
  rw [spectrumNode, Spec.Clean]
  refine ⟨by decide, ?_, parNodes_clean E hfmt _ h.2.2.2⟩
  intro a ha
  rw [List.mem_append, List.mem_append, List.mem_singleton] at ha
  rcases ha with (rfl | ha) | ha
  · exact ⟨by dsimp only; decide, h.1⟩
  · split at ha
    · rw [List.mem_singleton] at ha; subst ha; exact ⟨by dsimp only; decide, h.2.1⟩
    · cases ha
  · cases hs : s.scaling with
    | none => rw [hs] at ha; cases ha
    | some f =>
      rw [hs] at ha
      simp only [List.mem_singleton] at ha
      subst ha
      exact ⟨by dsimp only; decide, h.2.2.1 f hs⟩

mutual
theorem srcNode_clean (E : Env K) (hfmt : ∀ x, Spec.ValueOK (E.fmt x)) : ∀ s : Src K,
    Spec.SrcText s → Spec.Clean (srcNode E s)
  | .point n sp f ra dec, h => by
    rw [Spec.SrcText] at h
    rw [srcNode, Spec.Clean]
    refine ⟨by decide, ?_, spectrumNode_clean E hfmt sp h.2, ?_, trivial⟩
    · intro a ha
      simp only [List.mem_cons, List.not_mem_nil, or_false] at ha
      rcases ha with rfl | rfl
      · exact ⟨by dsimp only; decide, h.1⟩
      · decide
    · rw [Spec.Clean]
      refine ⟨by decide, by decide, parNodes_clean E hfmt _ ?_⟩
      intro p hp
      simp only [posPars, List.mem_cons, List.not_mem_nil, or_false] at hp
      rcases hp with rfl | rfl <;> (simp only [Spec.ParText]; decide)
  | .diffuse n sp f t ps fi mi, h => by
    rw [Spec.SrcText] at h
    rw [srcNode, Spec.Clean]
    refine ⟨by decide, ?_, spectrumNode_clean E hfmt sp h.2.1, ?_, trivial⟩
    · intro a ha
      simp only [List.mem_cons, List.not_mem_nil, or_false] at ha
      rcases ha with rfl | rfl
      · exact ⟨by dsimp only; decide, h.1⟩
      · decide
    · rw [Spec.Clean]
      refine ⟨by decide, ?_, parNodes_clean E hfmt _ h.2.2.2.2⟩
      intro a ha
      rw [List.mem_append, List.mem_append, List.mem_singleton] at ha
      rcases ha with (rfl | ha) | ha
      · exact ⟨by dsimp only; decide, h.2.2.1⟩
      · split at ha
        · rw [List.mem_singleton] at ha; subst ha; exact ⟨by dsimp only; decide, h.2.2.2.1⟩
        · cases ha
      · split at ha
        · rw [List.mem_singleton] at ha; subst ha; decide
        · cases ha
  | .composite n sp f ms, h => by
    rw [Spec.SrcText] at h
    rw [srcNode, Spec.Clean]
    refine ⟨by decide, ?_, spectrumNode_clean E hfmt sp h.2.1, ?_, trivial⟩
    · intro a ha
      simp only [List.mem_cons, List.not_mem_nil, or_false] at ha
      rcases ha with rfl | rfl
      · exact ⟨by dsimp only; decide, h.1⟩
      · decide
    · rw [Spec.Clean]
      exact ⟨by decide, by simp, srcNodes_clean E hfmt ms h.2.2⟩
theorem srcNodes_clean (E : Env K) (hfmt : ∀ x, Spec.ValueOK (E.fmt x)) : ∀ ss : List (Src K),
    Spec.AllText ss → Spec.AllClean (srcNodes E ss)
  | [], _ => by rw [srcNodes]; trivial
  | s :: ss, h => by
    rw [Spec.AllText] at h
    rw [srcNodes]
    exact ⟨srcNode_clean E hfmt s h.1, srcNodes_clean E hfmt ss h.2⟩
end

/-- **C76** (partial).  The text of the file of any model, with composite sources of any depth,
is read as the elements that were written, if the text of a number and the names in the model
have neither quotation marks nor ampersands. -/
theorem C76_model_partial (E : Env K) (hfmt : ∀ x, Spec.ValueOK (E.fmt x))
    (funcLib title : String) (ss : List (Src K)) (hf : Spec.ValueOK funcLib)
    (ht : Spec.ValueOK title) (hs : Spec.AllText ss) :
    readFile (printFile (libNode E funcLib title ss)) = some (libNode E funcLib title ss) := by
  apply C76_text_partial
  rw [libNode, Spec.Clean]
  refine ⟨by decide, ?_, srcNodes_clean E hfmt ss hs⟩
  intro a ha
  rw [List.mem_append, List.mem_singleton] at ha
  rcases ha with ha | rfl
  · split at ha
    · cases ha
    · rw [List.mem_singleton] at ha; subst ha; exact ⟨by dsimp only; decide, hf⟩
  · exact ⟨by dsimp only; decide, ht⟩

/-- **C76** (partial).  The round trip of C73 through the text of the file: what is written,
printed, scanned and read is the model again, without uncertainties and with all switches on. -/
theorem C76_roundtrip_partial (E : Env K) (hfmt : ∀ x, Spec.ValueOK (E.fmt x))
    (funcLib title : String) (ss : List (Src K)) (hf : Spec.ValueOK funcLib)
    (ht : Spec.ValueOK title) (hx : Spec.AllText ss)
    (hs : (ss.map Src.name).Pairwise (· < ·)) (hok : Spec.AllSound E ss) :
    ∃ n, readFile (printFile (libNode E funcLib title ss)) = some n ∧
      readXml E true n [] = .ok (ss.map (fun s => (s.name, Spec.saved s))) :=
  ⟨_, C76_model_partial E hfmt funcLib title ss hf ht hx,
    C73_roundtrip_partial E funcLib title ss hs hok⟩

theorem exFmtOK (x : ℚ) : Spec.ValueOK (exEnv.fmt x) := by
  show Spec.ValueOK (exFmt x)
  unfold exFmt
  split_ifs <;> decide

theorem exTextOK : Spec.AllText [exDiffuse, exPoint] := by
  simp only [Spec.AllText, Spec.SrcText, exDiffuse, exPoint, Spec.SpecText, Spec.ParText, exSpec,
    exPiece]
  refine ⟨⟨by decide, ⟨by decide, by decide, by decide, by simp; decide⟩, by decide, by decide,
    by simp; decide⟩, ⟨by decide, by decide, by decide, by simp; decide, by simp; decide⟩, trivial⟩

example : ∃ n, readFile (printFile (libNode exEnv "" "my model" [exDiffuse, exPoint])) = some n ∧
    readXml exEnv true n [] = .ok [("gal", Spec.saved exDiffuse), ("vela", Spec.saved exPoint)] :=
  C76_roundtrip_partial exEnv exFmtOK "" "my model" _ (by decide) (by decide) exTextOK
    (by show (["gal", "vela"] : List String).Pairwise (· < ·); decide)
    ⟨exDiffuseOK, exPointOK, trivial⟩

end Model

end Verif.Xml
