import Verif.LtCube.Types
/-
gtltcube, src/makeExposureCube/makeExposureCube.cxx, with the parts of RoiCuts it uses.
Cuts other than good time intervals, the file's format, the messages and the keywords for
dates and versions are left out.
-/
namespace Verif.LtCube
open Verif.Livetime

/-- The extreme times of the cuts, RoiCuts.cxx:165-174, beginning with those of the first. -/
noncomputable def extremes : List GtiCut → ℝ × ℝ → ℝ × ℝ
  | [], t => t
  | c :: cs, t => extremes cs (if c.lo < t.1 then c.lo else t.1, if c.hi < t.2 then c.hi else t.2)

/-- What gtltcube knows of the cuts. -/
structure Cuts where
  gtis : List GtiCut
  minTime : ℝ
  maxTime : ℝ

/-- `readRoiCuts`, makeExposureCube.cxx:171-184, with `RoiCuts::setRoiData`,
RoiCuts.cxx:145-176, and `setCuts`, RoiCuts.cxx:70-91. -/
noncomputable def readCuts (c : Call) : Res Cuts :=
  match c.events with
  | none => .ok ⟨[], c.tmin, c.tmax⟩
  | some [] => .throws
  | some (g :: gs) => .ok ⟨g :: gs, (extremes gs (g.lo, g.hi)).1, (extremes gs (g.lo, g.hi)).2⟩

/-- `RoiCuts::getGtis`, RoiCuts.cxx:58-68. -/
def getGtis (cuts : Cuts) : List (ℝ × ℝ) :=
  match cuts.gtis with
  | [] => []
  | g :: _ => g.ivals

/-- `getTBounds`, makeExposureCube.cxx:35-49: without intervals the bounds are not set, and
read all the same. -/
noncomputable def bounds : List (ℝ × ℝ) → Res (ℝ × ℝ)
  | [] => .ub
  | g :: gs => .ok ((g :: gs).foldl (fun b i => (if i.1 < b.1 then i.1 else b.1, if b.2 < i.2 then i.2 else b.2)) g)

variable {δ : Type}

/-- The filter, makeExposureCube.cxx:195-200, with `2.*maxIntervalSize` = 60. -/
noncomputable def passes (b : ℝ × ℝ) (r : Row δ) : Bool :=
  open Classical in decide (b.1 - 60 ≤ r.start ∧ r.stop ≤ b.2 + 60)

/-- The loop over the spacecraft files, makeExposureCube.cxx:220-240. -/
noncomputable def loadFiles (w : World δ) (gtis : List (ℝ × ℝ)) (b : ℝ × ℝ) : List Nat → Res (List (Fill δ))
  | [] => .ok []
  | f :: fs =>
    match w.sc f with
    | none => .throws
    | some rows => do
      let a ← load [] gtis (rows.filter (passes b))
      let rest ← loadFiles w gtis b fs
      .ok (a ++ rest)

/-- `createDataCube`, makeExposureCube.cxx:186-248. -/
noncomputable def createCube (w : World δ) (c : Call) (cuts : Cuts) : Res (List (Fill δ)) := do
  let b ← bounds (getGtis cuts)
  if getGtis cuts = [] then .throws else loadFiles w (getGtis cuts) b c.sc

/-- The keywords for the zenith angle, makeExposureCube.cxx:141-146. -/
noncomputable def zenKeys (c : Call) : Option (ℝ × ℝ) :=
  if c.zmax < 180 then some (c.zmin, c.zmax) else none

/-- The file that is written, makeExposureCube.cxx:120-129 and 131-147. -/
noncomputable def mkCube (c : Call) (cuts : Cuts) (fills : List (Fill δ)) : Cube δ :=
  ⟨fills, (c.zmin, c.zmax), cuts.minTime, cuts.maxTime, zenKeys c⟩

/-- The files after one is removed or written. -/
def World.put (w : World δ) (f : Nat) (x : Option (Cube δ)) : World δ :=
  { w with cubes := fun k => if k = f then x else w.cubes k }

/-- After the removal of an old file, makeExposureCube.cxx:119-129. -/
noncomputable def finish (c : Call) (cuts : Cuts) (w : World δ) : Outcome × World δ :=
  match createCube w c cuts with
  | .ok fills => (.done, w.put c.out (some (mkCube c cuts fills)))
  | .throws => (.failed, w)
  | .ub => (.undefined, w)

/-- `run`, makeExposureCube.cxx:101-129. -/
noncomputable def run (c : Call) (w : World δ) : Outcome × World δ :=
  match readCuts c with
  | .ok cuts =>
    if (w.cubes c.out).isSome then
      if c.clobber then finish c cuts (w.put c.out none) else (.refused, w)
    else finish c cuts w
  | .throws => (.failed, w)
  | .ub => (.undefined, w)

end Verif.LtCube
