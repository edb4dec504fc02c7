import Verif.Roi.Model

/-! # What event selection should do -/

namespace Verif.Roi.Spec

open Verif.Roi

/-- The event passes all the cuts: in some good time interval when there are any, in every time
range, in the energy range, in the region of interest, and below the zenith limit. -/
def Passes (r : RoiCuts) (e : Event) : Prop :=
  (r.gtis = [] ∨ ∃ g ∈ r.gtis, g.accepts e.time = true) ∧
  (∀ t ∈ r.timeRanges, t.accepts e.time = true) ∧
  (r.eMin ≤ e.energy ∧ e.energy ≤ r.eMax) ∧
  e.sep r.cone.ra r.cone.dec ≤ r.cone.radius ∧
  r.muZenMax ≤ e.muZenith

/-- The cuts of a file that are energy ranges. -/
def energyRanges (cs : List Cut) : List Range :=
  cs.filterMap (fun c => match c with
    | .range r => if r.col = "ENERGY" then some r else none | _ => none)

/-- The cuts of a file that are time ranges. -/
def timeRanges (cs : List Cut) : List Range :=
  cs.filterMap (fun c => match c with
    | .range r => if r.col = "TIME" then some r else none | _ => none)

/-- The cuts of a file that are cones. -/
def cones (cs : List Cut) : List Cone :=
  cs.filterMap (fun c => match c with | .cone r => some r | _ => none)

/-- The cuts of a file that are good time intervals. -/
def gtis (cs : List Cut) : List Gti :=
  cs.filterMap (fun c => match c with | .gti r => some r | _ => none)

/-- A logarithmic grid: `n` energies from `a` to `b`, the ratio of neighbours being constant. -/
def LogGrid (a b : ℝ) (n : Nat) (v : List ℝ) : Prop :=
  v.length = n ∧ v.head? = some a ∧ v.getLast? = some b ∧
  (∀ i x y, v[i]? = some x → v[i+1]? = some y → x < y) ∧
  ∃ q, ∀ i x y, v[i]? = some x → v[i+1]? = some y → y = q * x

end Verif.Roi.Spec
