import Verif.Xml.Text
import Verif.Xml.TextSpec
/-
Lemmas about reading a printed text.
-/
set_option linter.unusedSimpArgs false
set_option linter.unusedVariables false
namespace Verif.Xml

theorem nameChar_ok {c : Char} (h : c ∉ Spec.delimiters) : isNameChar c = true := by
  simp only [Spec.delimiters, List.mem_cons, List.not_mem_nil, or_false, not_or] at h
  obtain ⟨h1, h2, h3, h4, h5, h6, h7, h8, h9, h10⟩ := h
  simp [isNameChar, isBlank, h1, h2, h3, h4, h5, h6, h7, h8, h9, h10]

theorem span_loop {α : Type} (p : α → Bool) : ∀ (l acc : List α),
    List.span.loop p l acc = (acc.reverse ++ l.takeWhile p, l.dropWhile p)
  | [], acc => by simp [List.span.loop]
  | x :: l, acc => by
    cases h : p x <;> simp [List.span.loop, h, span_loop p l, List.takeWhile_cons, List.dropWhile_cons]

theorem span_eq {α : Type} (p : α → Bool) (l : List α) :
    l.span p = (l.takeWhile p, l.dropWhile p) := by
  rw [List.span, span_loop]; rfl

theorem takeWhile_stop {α : Type} (p : α → Bool) (d : α) (rest : List α) (hd : p d = false) :
    ∀ l : List α, (∀ x ∈ l, p x = true) →
      (l ++ d :: rest).takeWhile p = l ∧ (l ++ d :: rest).dropWhile p = d :: rest
  | [], _ => by simp [List.takeWhile_cons, List.dropWhile_cons, hd]
  | x :: l, h => by
    obtain ⟨h1, h2⟩ := takeWhile_stop p d rest hd l (fun y hy => h y (by simp [hy]))
    have hx := h x (by simp)
    constructor
    · rw [List.cons_append, List.takeWhile_cons, hx, if_pos rfl, h1]
    · rw [List.cons_append, List.dropWhile_cons, hx, if_pos rfl, h2]

theorem skip_blanks (n : ℕ) (c : Char) (hc : isBlank c = false) (cs : List Char) :
    skip (List.replicate n ' ' ++ c :: cs) = c :: cs := by
  exact (takeWhile_stop isBlank c cs hc _ (fun x hx => by rw [List.eq_of_mem_replicate hx]; rfl)).2

theorem skip_cons (c : Char) (hc : isBlank c = false) (cs : List Char) : skip (c :: cs) = c :: cs := by
  simp [skip, List.dropWhile_cons, hc]

theorem expand_clean : ∀ (f : ℕ) (v : List Char), '&' ∉ v → expandRefs f v = v
  | 0, v, _ => by cases v <;> rfl
  | f + 1, [], _ => rfl
  | f + 1, c :: v, h => by
    have hc : c ≠ '&' := fun e => h (by simp [e])
    have hfind : entities.find? (fun e => e.1.isPrefixOf (c :: v)) = none := by
      rw [List.find?_eq_none]
      intro e he
      simp only [entities, List.mem_cons, List.not_mem_nil, or_false] at he
      have hb : ('&' == c) = false := by simpa using fun e => hc e.symm
      rcases he with rfl | rfl | rfl | rfl | rfl <;> simp [List.isPrefixOf, hb]
    rw [expandRefs, hfind]
    simp only []
    rw [expand_clean f v (fun e => h (by simp [e]))]

theorem name_blank {s : String} (h : Spec.NameOK s) :
    ∃ c cs, s.toList = c :: cs ∧ isBlank c = false ∧ c ≠ '/' := by
  cases hs : s.toList with
  | nil => exact (h.1 hs).elim
  | cons c cs =>
    have := h.2 c (by rw [hs]; simp)
    simp only [Spec.delimiters, List.mem_cons, List.not_mem_nil, or_false, not_or] at this
    obtain ⟨h1, h2, h3, h4, h5, h6, h7, h8, h9, h10⟩ := this
    exact ⟨c, cs, rfl, by simp [isBlank, h1, h2, h3, h4], h5⟩

theorem readAttrs_print (d : Char) (rest : List Char) (hd : d = '/' ∨ d = '>') :
    ∀ (as : List (String × String)) (f : ℕ),
    (∀ a ∈ as, Spec.NameOK a.1 ∧ Spec.ValueOK a.2) → as.length < f →
    readAttrs f (printAttrs as ++ d :: rest) = some (as, d :: rest) := by
  intro as
  induction as with
  | nil =>
    intro f _ hf
    obtain ⟨g, rfl⟩ : ∃ g, f = g + 1 := ⟨f - 1, by simp at hf; omega⟩
    have hb : isBlank d = false := by rcases hd with rfl | rfl <;> rfl
    have hn : isNameChar d = false := by rcases hd with rfl | rfl <;> rfl
    rw [readAttrs, printAttrs, List.nil_append, skip_cons d hb, span_eq]
    simp [List.takeWhile_cons, List.dropWhile_cons, hn]
  | cons a as ih =>
    intro f h hf
    obtain ⟨g, rfl⟩ : ∃ g, f = g + 1 := ⟨f - 1, by simp at hf; omega⟩
    obtain ⟨n, v⟩ := a
    obtain ⟨hn, hv⟩ := h (n, v) (by simp)
    obtain ⟨c, cs, hc, hb, -⟩ := name_blank hn
    have htext : printAttrs ((n, v) :: as) ++ d :: rest =
        ' ' :: (n.toList ++ '=' :: '"' :: (v.toList ++ '"' :: (printAttrs as ++ d :: rest))) := by
      rw [printAttrs]; simp
    have hskip : skip (printAttrs ((n, v) :: as) ++ d :: rest) =
        n.toList ++ '=' :: '"' :: (v.toList ++ '"' :: (printAttrs as ++ d :: rest)) := by
      rw [htext, hc]
      exact skip_blanks 1 c hb _
    rw [readAttrs, hskip, span_eq]
    obtain ⟨h1, h2⟩ := takeWhile_stop isNameChar '='
      ('"' :: (v.toList ++ '"' :: (printAttrs as ++ d :: rest))) rfl n.toList
      (fun x hx => nameChar_ok (hn.2 x hx))
    rw [h1, h2, hc]
    simp only []
    obtain ⟨h3, h4⟩ := takeWhile_stop (fun c => c != '"') '"' (printAttrs as ++ d :: rest) rfl
      v.toList (fun x hx => by
        have : x ≠ '"' := fun e => hv.1 (e ▸ hx)
        simpa using this)
    rw [span_eq, h3, h4]
    simp only []
    rw [ih g (fun a ha => h a (by simp [ha])) (by simp at hf; omega)]
    simp only []
    rw [expand_clean _ _ hv.2, ← hc, String.ofList_toList, String.ofList_toList]

mutual
/-- Enough steps to read an element. -/
def steps : Node → ℕ
  | .mk _ as ks => 2 + as.length + stepsAll ks
/-- Enough steps to read elements and the closing tag after them. -/
def stepsAll : List Node → ℕ
  | [] => 1
  | k :: ks => 1 + steps k + stepsAll ks
end

theorem dropWhile_twice {α : Type} (p : α → Bool) : ∀ l : List α,
    (l.dropWhile p).dropWhile p = l.dropWhile p
  | [] => rfl
  | x :: l => by
    cases h : p x
    · simp [List.dropWhile_cons, h]
    · simp only [List.dropWhile_cons, h, if_true]
      exact dropWhile_twice p l

theorem readNode_skip (f : ℕ) (cs : List Char) : readNode (f + 1) (skip cs) = readNode (f + 1) cs := by
  have h : skip (skip cs) = skip cs := by
    unfold skip
    rw [dropWhile_twice]
  rw [readNode, readNode, h]

theorem readKids_newline (f : ℕ) (cs : List Char) : readKids (f + 1) ('\n' :: cs) = readKids (f + 1) cs := by
  have h : skip ('\n' :: cs) = skip cs := by
    unfold skip
    rw [List.dropWhile_cons]
    rfl
  rw [readKids, readKids, h]

mutual
theorem readNode_print : ∀ (n : Node) (depth f : ℕ) (rest : List Char), Spec.Clean n → steps n ≤ f →
    readNode f (printNode depth n ++ rest) = some (n, '\n' :: rest)
  | .mk tag as ks, depth, f, rest, hc, hf => by
    rw [Spec.Clean] at hc
    rw [steps] at hf
    obtain ⟨g, rfl⟩ : ∃ g, f = g + 1 := ⟨f - 1, by omega⟩
    have htext : printNode depth (.mk tag as ks) ++ rest =
        List.replicate (depth * 2) ' ' ++ '<' :: (tag.toList ++ (printAttrs as ++
          (printKids depth tag ks ++ rest))) := by
      rw [printNode]; simp
    rw [readNode, htext, skip_blanks _ '<' rfl]
    simp only []
    -- the character after the name
    have hsep : ∃ d r, printAttrs as ++ (printKids depth tag ks ++ rest) = d :: r ∧
        isNameChar d = false := by
      cases as with
      | cons a as =>
        obtain ⟨n, v⟩ := a
        rw [printAttrs]
        exact ⟨' ', _, rfl, rfl⟩
      | nil =>
        cases ks with
        | nil => rw [printKids]; exact ⟨'/', _, rfl, rfl⟩
        | cons k ks => rw [printKids]; exact ⟨'>', _, rfl, rfl⟩
    obtain ⟨d, r, hdr, hd⟩ := hsep
    obtain ⟨h1, h2⟩ := takeWhile_stop isNameChar d r hd tag.toList
      (fun x hx => nameChar_ok (hc.1.2 x hx))
    rw [hdr, h1, h2, ← hdr, String.ofList_toList]
    cases ks with
    | nil =>
      rw [printKids]
      have := readAttrs_print '/' ('>' :: '\n' :: rest) (Or.inl rfl) as g hc.2.1 (by omega)
      rw [show (['/', '>', '\n'] ++ rest : List Char) = '/' :: '>' :: '\n' :: rest from rfl, this]
      rfl
    | cons k ks =>
      have hk : printKids depth tag (k :: ks) ++ rest =
          '>' :: '\n' :: (printMore depth tag (k :: ks) ++ rest) := by
        rw [printKids, printMore]; simp
      rw [hk, readAttrs_print '>' _ (Or.inr rfl) as g hc.2.1 (by omega)]
      simp only []
      obtain ⟨e, rfl⟩ : ∃ e, g = e + 1 := ⟨g - 1, by omega⟩
      rw [readKids_newline, readKids_print (k :: ks) depth tag (e + 1) rest hc.1 hc.2.2 (by omega)]
theorem readKids_print : ∀ (ks : List Node) (depth : ℕ) (tag : String) (f : ℕ) (rest : List Char),
    Spec.NameOK tag → Spec.AllClean ks → stepsAll ks ≤ f →
    readKids f (printMore depth tag ks ++ rest) = some (ks, '\n' :: rest)
  | [], depth, tag, f, rest, ht, _, hf => by
    rw [stepsAll] at hf
    obtain ⟨g, rfl⟩ : ∃ g, f = g + 1 := ⟨f - 1, by omega⟩
    have htext : printMore depth tag [] ++ rest =
        List.replicate (depth * 2) ' ' ++ '<' :: ('/' :: (tag.toList ++ '>' :: ('\n' :: rest))) := by
      rw [printMore]; simp
    rw [readKids, htext, skip_blanks _ '<' rfl]
    simp only []
    obtain ⟨h1, h2⟩ := takeWhile_stop (fun c => c != '>') '>' ('\n' :: rest) rfl tag.toList
      (fun x hx => by
        have : x ≠ '>' := fun e => ht.2 x hx (by rw [e]; decide)
        simpa using this)
    rw [h2]
  | k :: ks, depth, tag, f, rest, ht, hc, hf => by
    rw [Spec.AllClean] at hc
    rw [stepsAll] at hf
    obtain ⟨g, rfl⟩ : ∃ g, f = g + 1 := ⟨f - 1, by omega⟩
    have h0 : steps k ≥ 2 := by cases k; rw [steps]; omega
    obtain ⟨e, rfl⟩ : ∃ e, g = e + 1 := ⟨g - 1, by omega⟩
    have htext : printMore depth tag (k :: ks) ++ rest =
        printNode (depth + 1) k ++ (printMore depth tag ks ++ rest) := by
      rw [printMore]; simp
    have hk := readNode_print k (depth + 1) (e + 1) (printMore depth tag ks ++ rest) hc.1 (by omega)
    rw [htext]
    -- the text starts with an opening tag
    have hopen : ∃ c r, skip (printNode (depth + 1) k ++ (printMore depth tag ks ++ rest)) = '<' :: c :: r
        ∧ c ≠ '/' := by
      obtain ⟨kt, kas, kks⟩ := k
      have hkc := hc.1
      rw [Spec.Clean] at hkc
      obtain ⟨c, cs, hcs, hb, hne⟩ := name_blank hkc.1
      refine ⟨c, cs ++ (printAttrs kas ++ (printKids (depth + 1) kt kks ++
        (printMore depth tag ks ++ rest))), ?_, hne⟩
      have : printNode (depth + 1) (.mk kt kas kks) ++ (printMore depth tag ks ++ rest) =
          List.replicate ((depth + 1) * 2) ' ' ++ '<' :: (kt.toList ++ (printAttrs kas ++
            (printKids (depth + 1) kt kks ++ (printMore depth tag ks ++ rest)))) := by
        rw [printNode]; simp
      rw [this, skip_blanks _ '<' rfl, hcs]
      rfl
    obtain ⟨c, r, hskip, hne⟩ := hopen
    rw [← readNode_skip] at hk
    rw [readKids, hskip]
    rw [hskip] at hk
    split
    · rename_i h
      simp only [List.cons.injEq, true_and] at h
      exact (hne h.1).elim
    · rename_i h
      rw [hk]
      simp only []
      rw [readKids_newline, readKids_print ks depth tag (e + 1) rest ht hc.2 (by omega)]
end

theorem printAttrs_length : ∀ as : List (String × String), as.length ≤ (printAttrs as).length
  | [] => Nat.zero_le _
  | (n, v) :: as => by
    have := printAttrs_length as
    rw [printAttrs]
    simp
    omega

mutual
theorem steps_le : ∀ (n : Node) (depth : ℕ), Spec.Clean n → steps n + 1 ≤ (printNode depth n).length
  | .mk tag as ks, depth, hc => by
    rw [Spec.Clean] at hc
    have h1 := printAttrs_length as
    have h2 : 0 < tag.toList.length := List.length_pos_of_ne_nil hc.1.1
    have h3 : stepsAll ks + 1 ≤ (printKids depth tag ks).length := by
      cases ks with
      | nil => rw [stepsAll, printKids]; simp
      | cons k ks =>
        have hk := hc.2.2
        rw [Spec.AllClean] at hk
        have h4 := steps_le k (depth + 1) hk.1
        have h5 := stepsAll_le ks depth tag hk.2
        rw [stepsAll, printKids]
        simp only [List.length_cons, List.length_append]
        omega
    rw [steps, printNode]
    simp only [List.length_cons, List.length_append, List.length_replicate]
    omega
theorem stepsAll_le : ∀ (ks : List Node) (depth : ℕ) (tag : String), Spec.AllClean ks →
    stepsAll ks ≤ (printMore depth tag ks).length
  | [], depth, tag, _ => by
    rw [stepsAll, printMore]; simp
    omega
  | k :: ks, depth, tag, hc => by
    rw [Spec.AllClean] at hc
    have h4 := steps_le k (depth + 1) hc.1
    have h5 := stepsAll_le ks depth tag hc.2
    rw [stepsAll, printMore]
    simp only [List.length_append]
    omega
end

end Verif.Xml
