import Verif.Ties.Types
/-
What a user expects of tied parameters: all members have the value of the tied parameter.
-/
namespace Verif.Ties.Spec

/-- A parameter by the numbers of its component and in the vector. -/
def look (cs : List Comp) (m : Nat × Nat) : Option Par := (cs[m.1]?).bind fun c => c.pars[m.2]?

/-- Every member is the tied parameter. -/
def Together (w : World) : Prop := ∀ t ∈ w.ties, ∀ m ∈ t.members, look w.comps m = some t.par

/-- No parameter is tied twice. -/
def Apart (w : World) : Prop := (w.ties.flatMap Tie.members).Nodup

/-- A parameter by the name of its source and its number there. -/
def ofSource (c : Comp) (n j : Nat) : Option Par := (c.srcs.find? fun s => s.name == n).bind fun s => s.pars[j]?

/-- A parameter is given to the sources if it is free; otherwise the source's one stays. -/
def merge (old new : Par) : Par := if new.free then new else old

/-- The vector of parameters stands for the parameters of the sources: the same in number, names
and freedom; the values may be new. -/
def Alike (c : Comp) : Prop :=
  List.Forall₂ (fun new old : Par => new.name = old.name ∧ new.free = old.free) c.pars (c.srcs.flatMap Src.pars) ∧
    ∀ s ∈ c.srcs, (s.pars.map Par.name).Nodup

end Verif.Ties.Spec
