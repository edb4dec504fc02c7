import Verif.Basic
import Mathlib.Data.Real.Basic
/-
Accumulation of livetime, src/LikeExposure.cxx, and of the exposure at a point,
src/PointSource.cxx.

`std::upper_bound` is the first position whose element is greater, which is what the binary
search finds in a sorted range (all that is used here).  What is filled into the sky map is
kept as the list of calls.
-/
namespace Verif.Livetime

/-- `overlap`, LikeExposure.cxx:341-351. -/
noncomputable def overlap (a b : ℝ × ℝ) : ℝ :=
  let start := max a.1 b.1
  let stop := min a.2 b.2
  if start < stop then stop - start else 0

/-- `overlaps`, LikeExposure.cxx:327-339: the answer and the new second interval. -/
noncomputable def overlaps (a b : ℝ × ℝ) : Bool × (ℝ × ℝ) :=
  let start := max a.1 b.1
  let stop := min a.2 b.2
  if start < stop then (true, (start, stop)) else (false, b)

/-- The loop over the time cuts, LikeExposure.cxx:289-294: `none` for a cut without
overlap. -/
noncomputable def applyCuts : List (ℝ × ℝ) → ℝ × ℝ → Option (ℝ × ℝ)
  | [], c => some c
  | k :: cuts, c => if (overlaps k c).1 then applyCuts cuts (overlaps k c).2 else none

/-- `std::upper_bound(..., compareFirst)`. -/
noncomputable def upperFirst (l : List (ℝ × ℝ)) (x : ℝ) : Nat :=
  open Classical in l.findIdx (fun g => decide (x < g.1))

/-- `std::upper_bound(..., compareSecond)`. -/
noncomputable def upperSecond (l : List (ℝ × ℝ)) (x : ℝ) : Nat :=
  open Classical in l.findIdx (fun g => decide (x < g.2))

/-- The good time intervals that are summed over, LikeExposure.cxx:299-317. -/
noncomputable def chosen (gtis : List (ℝ × ℝ)) (c : ℝ × ℝ) : List (ℝ × ℝ) :=
  let u := upperFirst gtis c.1
  let first := if u ≠ 0 then u - 1 else u
  let rest := gtis.drop first
  let last := upperSecond rest c.2
  let last := if last ≠ rest.length then last + 1 else last
  rest.take last

/-- `acceptInterval`, LikeExposure.cxx:265-325: the answer and `fraction`. -/
noncomputable def acceptInterval (start stop : ℝ) (cuts gtis : List (ℝ × ℝ)) : Res (Bool × ℝ) :=
  if stop < start then .throws
  else if start = stop then .ok (false, 0)
  else
    match applyCuts cuts (start, stop) with
    | none => .ok (false, 0)
    | some c =>
      let maxTotal := c.2 - c.1
      let total := ((chosen gtis c).map fun g => overlap g c).sum
      let total := if maxTotal < total ∨ gtis.length = 0 then maxTotal else total
      .ok (true, total / (stop - start))

/-- A row of the spacecraft table; `dir` stands for the directions. -/
structure Row (δ : Type) where
  start : ℝ
  stop : ℝ
  livetime : ℝ
  dir : δ

/-- The extreme times of the constructor, LikeExposure.cxx:58-67, for non-empty intervals. -/
noncomputable def tmin : List (ℝ × ℝ) → ℝ
  | [] => 0
  | g :: gs => gs.foldl (fun m g => if g.1 < m then g.1 else m) g.1

/-- See `tmin`. -/
noncomputable def tmax : List (ℝ × ℝ) → ℝ
  | [] => 0
  | g :: gs => gs.foldl (fun m g => if m < g.2 then g.2 else m) g.2

/-- A call of `fill` for both maps: directions, livetime and weighted livetime,
LikeExposure.cxx:142-156. -/
structure Fill (δ : Type) where
  dir : δ
  time : ℝ
  weighted : ℝ

variable {δ : Type}

/-- The loop over the rows, LikeExposure.cxx:127-160; `last` is the variable `start`, the
start of the row before. -/
noncomputable def loadLoop (cuts gtis : List (ℝ × ℝ)) (tmax : ℝ) : List (Row δ) → ℝ → Res (List (Fill δ))
  | [], _ => .ok []
  | r :: rows, last =>
    if last < tmax then do
      let a ← acceptInterval r.start r.stop cuts gtis
      let rest ← loadLoop cuts gtis tmax rows r.start
      .ok (if a.1 then ⟨r.dir, r.livetime * a.2, r.livetime * a.2 * (r.livetime / (r.stop - r.start))⟩ :: rest
        else rest)
    else .ok []

/-- The number of the row at which the loop begins, LikeExposure.cxx:103-117: the one before
the first that starts after `tmin`. -/
noncomputable def firstRow (rows : List (Row δ)) (tmin : ℝ) : Nat :=
  let i := open Classical in rows.findIdx (fun r => decide (tmin < r.start))
  if i ≠ 0 then i - 1 else i

/-- `load`, LikeExposure.cxx:80-164, with the constructor's times; without good time intervals
the constructor throws.  The count of rows for the progress dots is left out. -/
noncomputable def load (cuts gtis : List (ℝ × ℝ)) (rows : List (Row δ)) : Res (List (Fill δ)) :=
  match gtis with
  | [] => .throws
  | _ :: _ =>
    match rows.drop (firstRow rows (tmin gtis)) with
    | [] => .ok []
    | r :: rest => loadLoop cuts gtis (tmax gtis) (r :: rest) r.start

/-- `ScData::time_index`, ScData.cxx:102-118, plus one: the position given by
`std::upper_bound`.  (The index itself is one less, as a `size_t`.) -/
noncomputable def timePos (rows : List (Row δ)) (tol time : ℝ) : Res Nat :=
  match rows[0]?, rows[rows.length - 1]? with
  | some f, some l =>
    if time < f.start - tol ∨ l.stop + tol < time then .throws
    else .ok (open Classical in rows.findIdx (fun r => decide (time < r.start)))
  | _, _ => .ub

/-- The number of intervals taken into account by `computeExposure`,
PointSource.cxx:408-411 (the test of `it < numIntervals()` in 413 is `take`). -/
noncomputable def numPoints (rows : List (Row δ)) (maxTime tol : ℝ) : Res Nat :=
  match rows[rows.length - 1]? with
  | none => .throws
  | some r => if maxTime ≤ r.stop then timePos rows tol maxTime else .ok (rows.length - 1)

/-- `computeExposure` at one energy, PointSource.cxx:413-457; `area` is the effective area
times the efficiency, `visible` the test of the inclination. -/
noncomputable def sumExposure (cuts gtis : List (ℝ × ℝ)) (area : Row δ → ℝ) (visible : Row δ → Bool) :
    List (Row δ) → Res ℝ
  | [] => .ok 0
  | r :: rows => do
    let a ← acceptInterval r.start r.stop cuts gtis
    let rest ← sumExposure cuts gtis area visible rows
    .ok ((if a.1 && visible r then area r * r.livetime * a.2 else 0) + rest)

/-- `PointSource::computeExposure` at one energy, PointSource.cxx:395-457. -/
noncomputable def computeExposure (cuts gtis : List (ℝ × ℝ)) (area : Row δ → ℝ) (visible : Row δ → Bool)
    (rows : List (Row δ)) (maxTime tol : ℝ) : Res ℝ := do
  let n ← numPoints rows maxTime tol
  sumExposure cuts gtis area visible (rows.take n)

end Verif.Livetime
