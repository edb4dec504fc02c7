import Verif.SrcModel.Spec
import Mathlib.Analysis.SpecialFunctions.Log.Basic
import Mathlib.Topology.Basic

/-!
# The likelihood of one source: what is expected

Independent of the program.
-/

namespace Verif.OneSrc.Spec

/-- The events with weight above `epsw` and flux density away from zero. -/
def Used (epsw epsf : ℝ) (w q : ℝ) : Prop := epsw < w ∧ epsf < |q|

/-- `Σ w log q − Npred` over the events that are used. -/
noncomputable def logLike (epsw epsf : ℝ) (events : List (ℝ × ℝ)) (npred : ℝ) : ℝ :=
  open Classical in
  ((events.filter (fun e => decide (Used epsw epsf e.1 e.2))).map
    (fun e => e.1 * Real.log e.2)).sum - npred

/-- An event whose flux density is a function of the parameter: weight, flux density, derivative. -/
structure Ev where
  w : ℝ
  q : ℝ → ℝ
  v : ℝ

/-- The events at a value of the parameter. -/
def evAt (es : List Ev) (s : ℝ) : List (ℝ × ℝ) := es.map (fun e => (e.w, e.q s))

/-- The events with derivatives. -/
def evDeriv (es : List Ev) (s : ℝ) : List (ℝ × ℝ × ℝ) := es.map (fun e => (e.w, e.q s, e.v))

end Verif.OneSrc.Spec
