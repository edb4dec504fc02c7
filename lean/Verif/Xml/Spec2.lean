import Verif.Xml.Spec
/-
What a user expects of reading a file again into a model that has the sources already.
-/
namespace Verif.Xml.Spec

variable {K : Type}

/-- A spectrum with the parameters of another one. -/
def takePars [Zero K] (sp new : Spectrum K) : Spectrum K := { sp with pars := new.pars.map forget }

/-- The source `s` of the model after a file with the source `new` was read again: it has the
parameters of the file; a point source is at the position of the file if that is further away
than the tolerance. -/
def refreshed [Zero K] [LT K] [DecidableLT K] (sep : K × K → K × K → K) (tol : K) :
    Src K → Src K → Src K
  | .point n sp f ra dec, .point _ sp' _ ra' dec' =>
    if tol < sep (ra', dec') (ra, dec) then .point n (takePars sp sp') f ra' dec'
    else .point n (takePars sp sp') f ra dec
  | .diffuse n sp f t _ fi mi, .diffuse _ sp' _ _ ps' _ _ =>
    .diffuse n (takePars sp sp') f t (ps'.map forget) fi mi
  | s, _ => s

/-- The two sources are of the same kind and have the same parameters. -/
def SameShape : Src K → Src K → Prop
  | .point _ sp _ _ _, .point _ sp' _ _ _ => sp.pars.map (·.name) = sp'.pars.map (·.name)
  | .diffuse _ sp _ _ ps _ _, .diffuse _ sp' _ _ ps' _ _ =>
    sp.pars.map (·.name) = sp'.pars.map (·.name) ∧ ps.map (·.name) = ps'.map (·.name)
  | _, _ => False

/-- A point or diffuse source whose numbers survive in a file. -/
def Simple (E : Env K) : Src K → Prop
  | .point _ sp _ ra dec => (∀ p ∈ sp.pars, ParOK E p) ∧ Survives E ra ∧ Survives E dec
  | .diffuse _ sp _ _ ps _ _ => (∀ p ∈ sp.pars, ParOK E p) ∧ ∀ p ∈ ps, ParOK E p
  | .composite _ _ _ _ => False

/-- The parameters of all spectra, source by source. -/
def paramList (m : List (String × Src K)) : List (Par K) := m.flatMap (fun x => x.2.spec.pars)

end Verif.Xml.Spec
