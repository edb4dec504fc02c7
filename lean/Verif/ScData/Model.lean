import Verif.Basic
import Mathlib.Analysis.Normed.Module.Basic
/-
The pointing and livetime history, src/ScData.cxx.

A direction is a vector of a normed space over the reals (in the program three components).
A vector of fewer than two directions makes `size() - 2` wrap around; indices are natural
numbers, and the index `begin() - 1` is the number `npos`, larger than every size.
-/
namespace Verif.ScData

variable {V : Type} [NormedAddCommGroup V] [NormedSpace ℝ V]

/-- A row of a spacecraft table, ScData.cxx:49-66. -/
structure Row (V : Type) where
  start : ℝ
  stop : ℝ
  livetime : ℝ
  x : V
  z : V

/-- The loop over the rows of a file, ScData.cxx:52-83.  The rows have passed the filter of the
file; `data` are those read before. -/
noncomputable def readRows (tstart tstop : ℝ) : List (Row V) → List (Row V) → Res (List (Row V))
  | [], data => .ok data
  | r :: rows, data =>
    if r.stop < tstart ∨ tstop < r.start then readRows tstart tstop rows data
    else if 1 < data.length ∧ ∃ l, data.getLast? = some l ∧ r.start < l.start then .throws
    else readRows tstart tstop rows (data ++ [r])

/-- `readData` for one file, ScData.cxx:31-84, without clearing.  The times in the filter are
written with ten digits in the program, exactly here. -/
noncomputable def readFile (tstart tstop : ℝ) (file : List (Row V)) (data : List (Row V)) : Res (List (Row V)) :=
  let a := tstart - 2 * 30
  let b := tstop + 2 * 30
  readRows a b (open Classical in file.filter fun r => decide (a ≤ r.start) && decide (r.stop ≤ b)) data

/-- The loop over the files, ScData.cxx:90-94. -/
noncomputable def readFiles (tstart tstop : ℝ) : List (List (Row V)) → List (Row V) → Res (List (Row V))
  | [], data => .ok data
  | f :: fs, data => do
    let d ← readFile tstart tstop f data
    readFiles tstart tstop fs d

/-- `readData` for several files, ScData.cxx:86-100. -/
noncomputable def readData (tstart tstop : ℝ) (files : List (List (Row V))) : Res (List (Row V)) := do
  let d ← readFiles tstart tstop files []
  if d.length = 0 then .throws else .ok d

/-- The largest `size_t`. -/
def npos : Nat := 2 ^ 64 - 1

/-- The tolerance of ScData.cxx:105. -/
noncomputable def tol : ℝ := 1 / 100000

/-- `time_index`, ScData.cxx:102-118. -/
noncomputable def timeIndex (d : List (Row V)) (time : ℝ) : Res Nat :=
  match d[0]?, d[d.length - 1]? with
  | some f, some l =>
    if time < f.start - tol ∨ l.stop + tol < time then .throws
    else
      let it := open Classical in d.findIdx (fun r => decide (time < r.start))
      .ok (if it = 0 then npos else it - 1)
  | _, _ => .ub

/-- `.at(i)`: an exception beyond the end. -/
def rowAt (d : List (Row V)) (i : Nat) : Res (Row V) :=
  match d[i]? with
  | some r => .ok r
  | none => .throws

/-- `livetimefrac`, ScData.cxx:120-127.  A division by zero, in the program not a number, is
`ub`. -/
noncomputable def livetimefrac (d : List (Row V)) (time : ℝ) : Res ℝ := do
  let i ← timeIndex d time
  let r ← rowAt d i
  if time < r.start ∨ r.stop < time then .ok 0
  else if r.stop - r.start = 0 then .ub
  else .ok (r.livetime / (r.stop - r.start))

/-- `Hep3Vector::unit`: the null vector is left as it is. -/
noncomputable def unit (v : V) : V :=
  if ‖v‖ = 0 then v else ‖v‖⁻¹ • v

/-- `xAxis(time)` and `zAxis(time)`, ScData.cxx:129-145, for the axis `ax`; the minimum with
`size() - 2` as `size_t`.  A division by zero is `ub`. -/
noncomputable def axis (ax : Row V → V) (d : List (Row V)) (time : ℝ) : Res V := do
  let i ← timeIndex d time
  let n2 := if d.length < 2 then 2 ^ 64 + d.length - 2 else d.length - 2
  let j := min i n2
  let r ← rowAt d j
  let s ← rowAt d (j + 1)
  if s.start - r.start = 0 then .ub
  else
    let frac := (time - r.start) / (s.start - r.start)
    .ok (unit (frac • (ax s - ax r) + ax r))

end Verif.ScData
