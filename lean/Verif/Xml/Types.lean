import Mathlib.Data.String.Basic
/-
The objects that are written to a model file and read back: sources with their spectra,
spatial parts and parameters, and the elements of the file.

Numbers are of an arbitrary type `K`.  The text of a number and its conversion back are
functions of the environment (`Env.fmt`, `Env.stod`), so that nothing is assumed about the
precision of the text unless a theorem says so.
-/
namespace Verif.Xml

/-- An element of a file: its tag, its attributes and the elements inside, in the order of
the file.  (`rapidxml::xml_node`, which belongs to another package.) -/
inductive Node where
  | mk (tag : String) (attrs : List (String × String)) (kids : List Node)

/-- The tag of an element. -/
def Node.tag : Node → String
  | .mk t _ _ => t
/-- The attributes of an element. -/
def Node.attrs : Node → List (String × String)
  | .mk _ a _ => a
/-- The elements inside an element. -/
def Node.kids : Node → List Node
  | .mk _ _ k => k

/-- `optimizers::Parameter`: name, value, scale, bounds, whether it is free, and the
uncertainty found by the last fit. -/
structure Par (K : Type) where
  name : String
  value : K
  scale : K
  lo : K
  hi : K
  free : Bool
  err : K
deriving DecidableEq

/-- A spectrum: the generic name of the function, its parameters, the file of a tabulated
function (empty if there is none), the file of the scaling function if there is one, and
the energies which a `MultipleBrokenPowerLaw` or a `PiecewisePowerLaw` keeps besides its
parameters (`m_breakEnergies`, `m_energies`; empty for the other functions). -/
structure Spectrum (K : Type) where
  type : String
  pars : List (Par K)
  file : String
  scaling : Option String
  nodes : List K

/-- The three switches of a source, Source.h:302-308: whether the point spread function, the
exposure and the energy dispersion are applied to it. -/
structure Flags where
  psf : Bool
  expo : Bool
  edisp : Bool
deriving DecidableEq

/-- A source.  A point source has a position in degrees; a diffuse source has the generic
name of its spatial function, its parameters, the file of its map or profile (empty if it
has none) and `m_mapBasedIntegral`; a composite source has the sources inside, in the order
of `std::map`. -/
inductive Src (K : Type) where
  | point (name : String) (spec : Spectrum K) (flags : Flags) (ra dec : K)
  | diffuse (name : String) (spec : Spectrum K) (flags : Flags) (type : String)
      (pars : List (Par K)) (file : String) (mapInt : Bool)
  | composite (name : String) (spec : Spectrum K) (flags : Flags) (members : List (Src K))

/-- The name of a source. -/
def Src.name {K : Type} : Src K → String
  | .point n _ _ _ _ => n
  | .diffuse n _ _ _ _ _ _ => n
  | .composite n _ _ _ => n

/-- The spectrum of a source. -/
def Src.spec {K : Type} : Src K → Spectrum K
  | .point _ s _ _ _ => s
  | .diffuse _ s _ _ _ _ _ => s
  | .composite _ s _ _ => s

/-- The switches of a source. -/
def Src.flags {K : Type} : Src K → Flags
  | .point _ _ f _ _ => f
  | .diffuse _ _ f _ _ _ _ => f
  | .composite _ _ f _ => f

/-- What comes from outside the package: the text of a number
(`std::ostringstream` with `precision(15)`), the number of a text (`std::stod`; nothing if
it throws), the parameters of a newly created function of a type (`FunctionFactory::create`;
nothing if the type is unknown), the expansion of environment variables in a file name, and
the bounds of a newly added parameter. -/
structure Env (K : Type) where
  fmt : K → String
  stod : String → Option K
  proto : String → Option (List (Par K))
  expand : String → String
  bounds : K × K

end Verif.Xml
