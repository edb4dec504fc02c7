import Verif.Owner.Types
import Mathlib.Tactic.Common

/-!
# Maps and their projections: what a client expects

Maps are values: each has a geometry of its own, which no call on another map changes, and a map
can be used and destroyed as long as it was not destroyed before.
-/

namespace Verif.Owner.Spec

variable {G : Type}

/-- A map as the client sees it. -/
structure Value (G : Type) where
  kind : Kind
  wcs : Bool
  geom : G

/-- The maps so far, `none` for the destroyed ones. -/
abbrev Values (G : Type) := List (Option (Value G))

/-- Map `i`, if it is there. -/
def look (v : Values G) (i : ℕ) : Option (Value G) := v[i]?.bind id

/-- The expected effect of a call; `none` for a call no client may make (on a map that does not
exist, or of the wrong family). -/
def step (reb : ℕ → G → G) (v : Values G) : Op G → Option (Values G × Option G)
  | .make k w g => some (v ++ [some ⟨k, w, g⟩], none)
  | .copy i => (look v i).map (fun x => (v ++ [some x], none))
  | .ofCounts i => (look v i).bind (fun x =>
      if x.kind = .counts then some (v ++ [some ⟨.map, x.wcs, x.geom⟩], none) else none)
  | .assign i j => (look v i).bind (fun x => (look v j).bind (fun y =>
      if x.kind = .map ∧ y.kind = .map ∧ x.wcs = y.wcs then
        some (v.set i (some ⟨.map, x.wcs, y.geom⟩), none) else none))
  | .rebin i f => (look v i).bind (fun x =>
      if x.kind = .map ∧ x.wcs = true then
        some (v ++ [some ⟨.map, true, reb f x.geom⟩], none) else none)
  | .del i => (look v i).map (fun _ => (v.set i none, none))
  | .use i => (look v i).map (fun x => (v, some x.geom))
  | .bkgEff i _ => (look v i).bind (fun x =>
      if x.kind = .counts then some (v ++ [some x], none) else none)

/-- A history. -/
def run (reb : ℕ → G → G) (v : Values G) : List (Op G) → Option (Values G × List (Option G))
  | [] => some (v, [])
  | op :: ops => (step reb v op).bind (fun r =>
      (run reb r.1 ops).map (fun r' => (r'.1, r.2 :: r'.2)))

/-- The call makes a sky map out of a WCS counts map. -/
def Shares (v : Values G) : Op G → Prop
  | .ofCounts i => ∃ x, look v i = some x ∧ x.wcs = true
  | .bkgEff i _ => ∃ x, look v i = some x ∧ x.wcs = true
  | _ => False

/-- No call of the history makes a sky map out of a WCS counts map. -/
def NoShare (reb : ℕ → G → G) (v : Values G) : List (Op G) → Prop
  | [] => True
  | op :: ops => ¬ Shares v op ∧ ∀ r, step reb v op = some r → NoShare reb r.1 ops

/-- The number of rebinned maps made. -/
def rebins : List (Op G) → ℕ
  | [] => 0
  | .rebin _ _ :: ops => rebins ops + 1
  | _ :: ops => rebins ops

/-- The maps that exist. -/
def count (v : Values G) : ℕ := v.countP (·.isSome)

end Verif.Owner.Spec
