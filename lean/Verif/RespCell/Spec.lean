import Verif.RespCell.Types
/-
The flux density of a source at an event.
-/
namespace Verif.RespCell.Spec

mutual
/-- The flux density: every point source with its own response. -/
def density : Src → ℝ
  | .point spec resp _ _ => spec * resp
  | .diffuse d _ => d
  | .comp spec parts => spec * densities parts
/-- The sum over parts. -/
def densities : List Src → ℝ
  | [] => 0
  | s :: l => density s + densities l
end

mutual
/-- The sum of the derivatives of the parts, weighted with the spectra of the composite sources: every point
source with its own response. -/
def slope : Src → ℝ
  | .point _ resp dspec _ => resp * dspec
  | .diffuse _ d => d
  | .comp spec parts => spec * slopes parts
/-- The sum over parts. -/
def slopes : List Src → ℝ
  | [] => 0
  | s :: l => slope s + slopes l
end

mutual
/-- The responses of the point sources in a source, in order. -/
def resps : Src → List ℝ
  | .point _ resp _ _ => [resp]
  | .diffuse _ _ => []
  | .comp _ parts => respsOf parts
/-- Those of parts. -/
def respsOf : List Src → List ℝ
  | [] => []
  | s :: l => resps s ++ respsOf l
end

mutual
/-- The source with one response for all point sources. -/
def withResp (r : ℝ) : Src → Src
  | .point spec _ dspec pf => .point spec r dspec pf
  | .diffuse d e => .diffuse d e
  | .comp spec parts => .comp spec (withRespL r parts)
/-- The same for parts. -/
def withRespL (r : ℝ) : List Src → List Src
  | [] => []
  | s :: l => withResp r s :: withRespL r l
end

mutual
/-- The spectra with a parameter "Prefactor" are proportional to it. -/
def Linear : Src → Prop
  | .point spec _ dspec (some p) => spec = p * dspec
  | .point _ _ _ none => True
  | .diffuse _ _ => True
  | .comp _ parts => LinearL parts
/-- The same for parts. -/
def LinearL : List Src → Prop
  | [] => True
  | s :: l => Linear s ∧ LinearL l
end

end Verif.RespCell.Spec
