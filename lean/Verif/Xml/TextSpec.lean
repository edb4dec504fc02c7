import Verif.Xml.Types
/-
Which elements have a text that says what they are.
-/
namespace Verif.Xml.Spec

/-- The characters that separate names in a file. -/
def delimiters : List Char := [' ', '\n', '\t', '\r', '/', '>', '=', '"', '<', '?']

/-- A name of an element or attribute. -/
def NameOK (s : String) : Prop := s.toList ≠ [] ∧ ∀ c ∈ s.toList, c ∉ delimiters

/-- A value without quotes and ampersands. -/
def ValueOK (s : String) : Prop := '"' ∉ s.toList ∧ '&' ∉ s.toList

instance (s : String) : Decidable (NameOK s) := inferInstanceAs (Decidable (_ ∧ _))
instance (s : String) : Decidable (ValueOK s) := inferInstanceAs (Decidable (_ ∧ _))

mutual
/-- All names and values in the element are as above. -/
def Clean : Node → Prop
  | .mk t as ks => NameOK t ∧ (∀ a ∈ as, NameOK a.1 ∧ ValueOK a.2) ∧ AllClean ks
/-- All of a list of elements. -/
def AllClean : List Node → Prop
  | [] => True
  | k :: ks => Clean k ∧ AllClean ks
end

/-- The strings of a parameter. -/
def ParText {K : Type} (p : Par K) : Prop := ValueOK p.name

/-- The strings of a spectrum. -/
def SpecText {K : Type} (s : Spectrum K) : Prop :=
  ValueOK s.type ∧ ValueOK s.file ∧ (∀ t, s.scaling = some t → ValueOK t) ∧ ∀ p ∈ s.pars, ParText p

mutual
/-- The strings of a source: its name, those of its spectrum and of its spatial part, and those
of the sources inside it. -/
def SrcText {K : Type} : Src K → Prop
  | .point n sp _ _ _ => ValueOK n ∧ SpecText sp
  | .diffuse n sp _ t ps f _ => ValueOK n ∧ SpecText sp ∧ ValueOK t ∧ ValueOK f ∧ ∀ p ∈ ps, ParText p
  | .composite n sp _ ms => ValueOK n ∧ SpecText sp ∧ AllText ms
/-- Those of a list of sources. -/
def AllText {K : Type} : List (Src K) → Prop
  | [] => True
  | s :: ss => SrcText s ∧ AllText ss
end

end Verif.Xml.Spec
