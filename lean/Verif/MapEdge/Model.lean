import Verif.Basic
import Verif.MapEdge.Types
import Mathlib.Analysis.SpecialFunctions.Trigonometric.Basic
/-
The edge of a counts map and the radius of the correction of point-source maps.

Simplifications.  Real numbers for doubles.  The projection is a function that may throw, as
`SkyProj` does for positions outside of the projection (CountsMap.cxx:547-560 replaces the message of
that error and throws again); the angle between two directions is a function.
-/
namespace Verif.MapEdge
open Verif

variable {δ : Type}

/-- `getAxisVector` for a pixel axis, CountsMapBase.cxx:398-411, with the `LinearBinner(0.5, n + 0.5, 1.)`
of CountsMap.cxx:198-199: the lower bounds of the pixels and the upper bound of the last. -/
noncomputable def axis (n : Nat) : List ℝ :=
  (List.range n).map (fun i : Nat => (1 / 2 : ℝ) + i) ++ [(n : ℝ) + 1 / 2]

/-- `at`. -/
def atIdx {α : Type} (l : List α) (i : Nat) : Res α :=
  match l[i]? with
  | some a => .ok a
  | none => .throws

/-- One column of the boundary, CountsMap.cxx:535-538, 540-543. -/
def column (proj : Pos → Res δ) (lon lat : List ℝ) (i : Nat) : Res (List δ) :=
  lat.mapM fun y => do
    let x ← atIdx lon i
    proj ⟨x, y⟩

/-- One row of the boundary, CountsMap.cxx:545-548, 550-553. -/
def row (proj : Pos → Res δ) (lon lat : List ℝ) (j : Nat) : Res (List δ) :=
  lon.mapM fun x => do
    let y ← atIdx lat j
    proj ⟨x, y⟩

/-- `getBoundaryPixelDirs`, CountsMap.cxx:521-566. -/
noncomputable def boundary (proj : Pos → Res δ) (nx ny : Nat) : Res (List δ) := do
  let a ← column proj (axis nx) (axis ny) 0
  let b ← column proj (axis nx) (axis ny) ((axis nx).length - 1)
  let c ← row proj (axis nx) (axis ny) 0
  let d ← row proj (axis nx) (axis ny) ((axis ny).length - 1)
  .ok (a ++ b ++ c ++ d)

open Classical in
/-- The loop of `maxPsfRadius`, PSFUtils.cxx:121-126. -/
noncomputable def least (f : δ → ℝ) : ℝ → List δ → ℝ
  | r, [] => r
  | r, d :: l => least f (if f d < r then f d else r) l

/-- `maxPsfRadius`, PSFUtils.cxx:115-128; `f` is the angle to the source. -/
noncomputable def maxPsfRadius (proj : Pos → Res δ) (nx ny : Nat) (f : δ → ℝ) : Res ℝ := do
  let ds ← boundary proj nx ny
  let d ← atIdx ds 0
  .ok (least f (f d) (ds.drop 1) * 180 / Real.pi)

open Classical in
/-- The loop of `maxRadius`, PSFUtils.cxx:106-111. -/
noncomputable def most (f : δ → ℝ) : ℝ → List δ → ℝ
  | r, [] => r
  | r, d :: l => most f (if f d > r then f d else r) l

/-- `maxRadius`, PSFUtils.cxx:102-113. -/
noncomputable def maxRadius (pixels : List δ) (f : δ → ℝ) : ℝ := most f 0 pixels * 180 / Real.pi

/-- The part of `makePointSourceMap_wcs` before the loop over the pixels for a source with a point-spread
function, PSFUtils.cxx:963-968: the radius is computed whether or not the correction is made
(`apply`). -/
noncomputable def prepare (proj : Pos → Res δ) (nx ny : Nat) (f : δ → ℝ) (apply : Bool) : Res (Option ℝ) := do
  let r ← maxPsfRadius proj nx ny f
  .ok (if apply then some r else none)

end Verif.MapEdge
