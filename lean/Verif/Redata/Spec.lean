import Verif.Binned.Spec
/-
What replacing counts, weights or the map of a source should do: the log likelihood afterwards is that of the
new data, weights or map (`Binned.logLike`).
-/
namespace Verif.Redata.Spec

open Verif.Binned

/-- Counts and weights may differ, everything else is the same. -/
structure Alike (e e' : Env) : Prop where
  nebins : e'.nebins = e.nebins
  npix : e'.npix = e.npix
  ev : e'.ev = e.ev
  rsp : e'.rsp = e.rsp
  cols : e'.cols = e.cols

/-- The calls that make the likelihood compute its model again: an evaluation and a choice of the energy range. -/
def Restart {ν : Type} : Op ν → Prop
  | .value => True
  | .setKlims _ _ => True
  | _ => False

/-- The sources with another map for one of them. -/
def withMap {ν : Type} [DecidableEq ν] (n : ν) (img : List ℝ) (srcs : List (ν × Src)) : List (ν × Src) :=
  srcs.map (fun x => (x.1, if x.1 = n then { x.2 with tmpl := fun _ => img } else x.2))

end Verif.Redata.Spec
