import Verif.SrcModel.Model
/-
What a user expects of the parameter list of a source model.
-/
namespace Verif.SrcModel

variable {κ K : Type} [LinearOrder κ]

/-- Sources in strictly increasing order of name, each under its own name. -/
structure WF (s : M κ K) : Prop where
  sorted : s.sources.Pairwise (fun a b => a.1 < b.1)
  names : ∀ x ∈ s.sources, x.2.name = x.1

/-- The parameter list is the concatenation of the parameters of the sources in order of
name, and the free sources are those with a free parameter. -/
structure Mirror (s : M κ K) : Prop where
  wf : WF s
  param : s.param = (s.sources.map (fun x => x.2.pars)).flatten
  freeSrcs : s.freeSrcs = (s.sources.filter (fun x => x.2.pars.any (·.free))).map (·.1)

/-- Everything about a parameter except its value. -/
def Par.shape (p : Par κ K) : κ × K × K × K × Bool := (p.name, p.scale, p.lo, p.hi, p.free)

/-- The parameters selected by "all" or "free only". -/
def sel (onlyFree : Bool) (ps : List (Par κ K)) : List (Par κ K) :=
  if onlyFree then ps.filter (·.free) else ps

/-- The list with the selected parameters replaced, in order, by the given ones. -/
def replaceSel (onlyFree : Bool) : List (Par κ K) → List (Par κ K) → List (Par κ K)
  | p :: ps, qs =>
    if onlyFree && !p.free then p :: replaceSel onlyFree ps qs
    else match qs with
      | q :: qs => q :: replaceSel onlyFree ps qs
      | [] => p :: ps
  | [], _ => []

end Verif.SrcModel
