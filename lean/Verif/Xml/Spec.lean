import Mathlib.Algebra.Order.Field.Basic
import Verif.Xml.Types
/-
What a user expects of writing a model and reading it back, in terms of the objects of
`Verif.Xml.Types` only.
-/
namespace Verif.Xml.Spec

variable {K : Type}

/-- The text of the number is read as the same number (and is not empty). -/
def Survives (E : Env K) (x : K) : Prop := E.stod (E.fmt x) = some x ∧ E.fmt x ≠ ""

/-- All numbers of a parameter survive. -/
def ParOK (E : Env K) (p : Par K) : Prop :=
  Survives E p.value ∧ Survives E p.scale ∧ Survives E p.lo ∧ Survives E p.hi

/-- A parameter without the uncertainty of the last fit. -/
def forget [Zero K] (p : Par K) : Par K := { p with err := 0 }

/-- A spectrum without the uncertainties of its parameters. -/
def forgetSpec [Zero K] (s : Spectrum K) : Spectrum K := { s with pars := s.pars.map forget }

/-- The parameters are those of a newly created function of the type: the type is known, the
names agree one by one, no name occurs twice, and a new function has no uncertainties. -/
def Known [Zero K] (E : Env K) (type : String) (pars : List (Par K)) : Prop :=
  ∃ ps, E.proto type = some ps ∧ ps.map (·.name) = pars.map (·.name) ∧
    (pars.map (·.name)).Nodup ∧ ∀ p ∈ ps, p.err = 0

/-- The names are the word followed by 0, 1, 2, … -/
def Numbered (word : String) (ps : List (Par K)) : Prop :=
  ps.map (·.name) = (List.range ps.length).map (fun i => word ++ toString i)

/-- The energies kept are the true values of the parameters, and they increase. -/
def Nodes [Mul K] [LT K] (ps : List (Par K)) (nodes : List K) : Prop :=
  nodes = ps.map (fun p => p.value * p.scale) ∧ nodes.Pairwise (· < ·)

/-- A power law with many breaks: a normalization, one more index than breaks. -/
def MultiBroken [Zero K] [Mul K] [LT K] (E : Env K) (s : Spectrum K) : Prop :=
  s.type = "MultipleBPL" ∧ E.proto s.type = some [] ∧
  ∃ n idx brk, s.pars = n :: (idx ++ brk) ∧ n.name = "Normalization" ∧
    Numbered "Index" idx ∧ Numbered "Break" brk ∧ idx.length = brk.length + 1 ∧
    Nodes brk s.nodes

/-- A piecewise power law: two indices, and as many flux values as energies. -/
def Piecewise [Zero K] [Mul K] [LT K] (E : Env K) (s : Spectrum K) : Prop :=
  s.type = "PiecewisePowerLaw" ∧ E.proto s.type = some [] ∧
  ∃ l h dnde ens, s.pars = l :: h :: (dnde ++ ens) ∧ l.name = "IndexL" ∧ h.name = "IndexH" ∧
    Numbered "dNdE" dnde ∧ Numbered "Energy" ens ∧ dnde.length = ens.length ∧
    Nodes ens s.nodes

/-- A spectrum which a file can describe: its numbers survive, it is of a known type, it has
a file name only if it is one of the tabulated functions, and its scaling function comes from
a file with a name. -/
def SpecOK [Zero K] [Mul K] [LT K] (E : Env K) (s : Spectrum K) : Prop :=
  (∀ p ∈ s.pars, ParOK E p) ∧
  ((s.type ≠ "MultipleBPL" ∧ s.type ≠ "PiecewisePowerLaw" ∧ s.nodes = [] ∧
      Known E s.type s.pars) ∨ MultiBroken E s ∨ Piecewise E s) ∧
  (s.type = "DMFitFunction" ∨ s.type = "FileFunction" ∨ s.type = "ScaleFactor::FileFunction" ∨
    s.file = "") ∧
  s.scaling ≠ some ""

/-- A diffuse source which a file can describe. -/
def SpatialOK [Zero K] (E : Env K) (type : String) (pars : List (Par K)) (file : String)
    (mapInt : Bool) : Prop :=
  (∀ p ∈ pars, ParOK E p) ∧ Known E type pars ∧
  (((type = "SpatialMap" ∨ type = "MapCubeFunction") ∧ E.expand file = file) ∨
   (type = "RadialProfile" ∧ E.expand file = file ∧ mapInt = false) ∨
   (type ≠ "SpatialMap" ∧ type ≠ "MapCubeFunction" ∧ type ≠ "RadialProfile" ∧ file = "" ∧
     mapInt = false))

mutual
/-- A source which a file can describe. -/
def Sound [Zero K] [Mul K] [LT K] (E : Env K) : Src K → Prop
  | .point _ spec _ ra dec => SpecOK E spec ∧ Survives E ra ∧ Survives E dec
  | .diffuse _ spec _ type pars file mapInt => SpecOK E spec ∧ SpatialOK E type pars file mapInt
  | .composite _ spec _ ss =>
    SpecOK E spec ∧ (ss.map Src.name).Pairwise (· < ·) ∧ AllSound E ss
/-- All sources can be described by a file. -/
def AllSound [Zero K] [Mul K] [LT K] (E : Env K) : List (Src K) → Prop
  | [] => True
  | s :: ss => Sound E s ∧ AllSound E ss
end

mutual
/-- What a file keeps of a source: everything but the uncertainties and the three switches,
which are all on afterwards. -/
def saved [Zero K] : Src K → Src K
  | .point name spec _ ra dec => .point name (forgetSpec spec) ⟨true, true, true⟩ ra dec
  | .diffuse name spec _ type pars file mapInt =>
    .diffuse name (forgetSpec spec) ⟨true, true, true⟩ type (pars.map forget) file mapInt
  | .composite name spec _ ss => .composite name (forgetSpec spec) ⟨true, true, true⟩ (savedAll ss)
/-- What a file keeps of the sources. -/
def savedAll [Zero K] : List (Src K) → List (Src K)
  | [] => []
  | s :: ss => saved s :: savedAll ss
end

mutual
/-- A source in which nothing is lost: all switches are on and there are no uncertainties. -/
def Plain [Zero K] : Src K → Prop
  | .point _ spec f _ _ => f = ⟨true, true, true⟩ ∧ ∀ p ∈ spec.pars, p.err = 0
  | .diffuse _ spec f _ pars _ _ =>
    f = ⟨true, true, true⟩ ∧ (∀ p ∈ spec.pars, p.err = 0) ∧ ∀ p ∈ pars, p.err = 0
  | .composite _ spec f ss =>
    f = ⟨true, true, true⟩ ∧ (∀ p ∈ spec.pars, p.err = 0) ∧ AllPlain ss
/-- All sources are plain. -/
def AllPlain [Zero K] : List (Src K) → Prop
  | [] => True
  | s :: ss => Plain s ∧ AllPlain ss
end

end Verif.Xml.Spec
