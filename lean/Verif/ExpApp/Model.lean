import Verif.ExpApp.Types
/-
`gtexpmap`, src/expMap/expMap.cxx: the source region, the good times and the times in the header.  How the map itself is made is the
subject of `Verif.ExpMap`.
-/
namespace Verif.ExpApp

/-- `setSourceRegion`, src/expMap/expMap.cxx:134-152: whether the user is warned. -/
noncomputable def sourceRegion (srcRadius roiRadius : ℝ) : Res Bool :=
  open Classical in
  if srcRadius < roiRadius + 10 then
    if srcRadius < roiRadius then .throws else .ok true
  else .ok false

/-- `timeCuts.at(i).first < tstart`, src/expMap/expMap.cxx:215-217. -/
noncomputable def earlier (a b : ℝ) : ℝ := open Classical in if a < b then a else b

/-- `timeCuts.at(i).second > tstop`, src/expMap/expMap.cxx:218-220. -/
noncomputable def later (a b : ℝ) : ℝ := open Classical in if a > b then a else b

/-- The loop body, src/expMap/expMap.cxx:215-220. -/
noncomputable def step (l : List Gti) (i : Nat) (t : Gti) : Res Gti := do
  let g ← vget l i
  .ok (earlier g.1 t.1, later g.2 t.2)

/-- The times in the header, src/expMap/expMap.cxx:212-221.  `front()` and `back()` of an empty vector are undefined.  The loop goes
from 1 to below `size() - 1`. -/
noncomputable def timeRange (l : List Gti) : Res Gti :=
  match l.head?, l.getLast? with
  | some a, some b => loop (step l) 1 (l.length - 1 - 1) (a.1, b.2)
  | _, _ => .ub

/-- The good times, src/expMap/expMap.cxx:205-210. -/
def goodTimes (x : Input) : List Gti :=
  match x.cube with
  | some l => l
  | none => x.events

/-- `run`, src/expMap/expMap.cxx:86-103, with `createExposureMap`, 154-235.  The extension with good times is written from the same
cuts (228-234). -/
noncomputable def run (x : Input) : Res Output := do
  let w ← sourceRegion x.srcRadius x.roiRadius
  let t ← timeRange (goodTimes x)
  .ok ⟨w, x.srcRadius, t.1, t.2, goodTimes x⟩

end Verif.ExpApp
