import Verif.Files.Types2
/-
What the user relies on for the tables of parameters and of the energy response.
-/
namespace Verif.Files.Spec

/-- All parameters of the sources in order, with the names of source and function. -/
def listing (srcs : List Src) : List (Name × Name × Par) :=
  srcs.flatMap fun s => (s.others ++ [s.spectrum]).flatMap fun f => f.pars.map fun p => (s.name, f.name, p)

/-- The row says everything about the parameter, up to the length of names. -/
def Describes (x : Name × Name × Par) (r : Row) : Prop :=
  r.src = x.1.take 32 ∧ r.func = x.2.1.take 32 ∧ r.par = x.2.2.name.take 32 ∧ r.value = x.2.2.value ∧ r.scale = x.2.2.scale ∧
    r.error = x.2.2.error ∧ r.free = x.2.2.free

end Verif.Files.Spec
