import Verif.Xml.Types
/-
Model of the text of a model file: the printer of src/SourceModelBuilder.cxx and how such a
text is read.  The printer is code of the repository.  The reader stands for
`xml_framework::SafeXmlParser` of another package (around rapidxml); it is the usual reading
of elements, attributes in double quotes and the five named character references.
-/
namespace Verif.Xml

/-! ### Printing -/

/-- The loop over the attributes, SourceModelBuilder.cxx:129-133: the value is written as it
is between two quotes. -/
def printAttrs : List (String × String) → List Char
  | [] => []
  | (n, v) :: as => ' ' :: n.toList ++ '=' :: '"' :: v.toList ++ '"' :: printAttrs as

mutual
/-- `prettyPrint`, SourceModelBuilder.cxx:120-147. -/
def printNode (depth : ℕ) : Node → List Char
  | .mk tag attrs kids =>
    List.replicate (depth * 2) ' ' ++ '<' :: tag.toList ++ printAttrs attrs ++ printKids depth tag kids
/-- The part after the attributes, SourceModelBuilder.cxx:136-145. -/
def printKids (depth : ℕ) (tag : String) : List Node → List Char
  | [] => ['/', '>', '\n']
  | k :: ks =>
    '>' :: '\n' :: printNode (depth + 1) k ++ printMore depth tag ks
/-- The remaining children and the closing tag, SourceModelBuilder.cxx:141-144. -/
def printMore (depth : ℕ) (tag : String) : List Node → List Char
  | [] => List.replicate (depth * 2) ' ' ++ '<' :: '/' :: tag.toList ++ ['>', '\n']
  | k :: ks => printNode (depth + 1) k ++ printMore depth tag ks
end

/-- The first line of a file, SourceModelBuilder.cxx:174. -/
def prolog : List Char := "<?xml version=\"1.0\" standalone=\"no\"?>\n".toList

/-- `SourceModelBuilder::write`, SourceModelBuilder.cxx:171-176. -/
def printFile (n : Node) : List Char := prolog ++ printNode 0 n

/-! ### Reading -/

/-- White space of a file. -/
def isBlank (c : Char) : Bool := c == ' ' || c == '\n' || c == '\t' || c == '\r'

/-- Without the white space at the beginning. -/
def skip (cs : List Char) : List Char := cs.dropWhile isBlank

/-- The characters of which names of elements and attributes consist. -/
def isNameChar (c : Char) : Bool :=
  !(isBlank c || c == '/' || c == '>' || c == '=' || c == '"' || c == '<' || c == '?')

/-- The named character references. -/
def entities : List (List Char × Char) :=
  [("&amp;".toList, '&'), ("&lt;".toList, '<'), ("&gt;".toList, '>'), ("&quot;".toList, '"'),
   ("&apos;".toList, '\'')]

/-- Character references replaced, from left to right, others left as they are. -/
def expandRefs : ℕ → List Char → List Char
  | 0, cs => cs
  | _, [] => []
  | f + 1, c :: cs =>
    match entities.find? (fun e => e.1.isPrefixOf (c :: cs)) with
    | some e => e.2 :: expandRefs f ((c :: cs).drop e.1.length)
    | none => c :: expandRefs f cs

/-- The attributes of an element, and the text after them. -/
def readAttrs : ℕ → List Char → Option (List (String × String) × List Char)
  | 0, _ => none
  | f + 1, cs =>
    match (skip cs).span isNameChar with
    | ([], r) => some ([], r)
    | (n, '=' :: '"' :: r) =>
      match r.span (fun c => c != '"') with
      | (v, '"' :: r') =>
        match readAttrs f r' with
        | some (as, r'') => some ((String.ofList n, String.ofList (expandRefs v.length v)) :: as, r'')
        | none => none
      | _ => none
    | _ => none

mutual
/-- An element, and the text after it. -/
def readNode : ℕ → List Char → Option (Node × List Char)
  | 0, _ => none
  | f + 1, cs =>
    match skip cs with
    | '<' :: r =>
      match readAttrs f (r.dropWhile isNameChar) with
      | some (as, '/' :: '>' :: r') =>
        some (.mk (String.ofList (r.takeWhile isNameChar)) as [], r')
      | some (as, '>' :: r') =>
        match readKids f r' with
        | some (ks, r'') => some (.mk (String.ofList (r.takeWhile isNameChar)) as ks, r'')
        | none => none
      | _ => none
    | _ => none
/-- The elements up to the next closing tag, and the text after that. -/
def readKids : ℕ → List Char → Option (List Node × List Char)
  | 0, _ => none
  | f + 1, cs =>
    match skip cs with
    | '<' :: '/' :: r =>
      match r.dropWhile (fun c => c != '>') with
      | _ :: r' => some ([], r')
      | [] => none
    | r =>
      match readNode f r with
      | some (k, r') =>
        match readKids f r' with
        | some (ks, r'') => some (k :: ks, r'')
        | none => none
      | none => none
end

/-- The text after the first line of a file, if that is a declaration. -/
def afterProlog : List Char → List Char
  | '<' :: '?' :: r => r.dropWhile (fun c => c != '\n')
  | cs => cs

/-- The element of a file; only white space may follow it. -/
def readFile (cs : List Char) : Option Node :=
  match readNode (cs.length + 1) (afterProlog cs) with
  | some (n, r) => if skip r = [] then some n else none
  | none => none

end Verif.Xml
