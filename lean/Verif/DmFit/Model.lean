import Verif.Basic
import Verif.DmFit.Types
import Mathlib.Tactic.Common
import Mathlib.Analysis.SpecialFunctions.Log.Basic
import Mathlib.Analysis.SpecialFunctions.Trigonometric.Basic

/-!
# Model of `DMFitFunction` and of the routines behind it

src/dmfit/DMFitFunction.cxx, src/dmfit/dmfit_func.c, src/dmfit/dmfit_comm.c and
src/dmfit/dmfit_load.c.  Arithmetic is that of the reals; the table, which the code keeps in single
precision, holds reals too.
-/

namespace Verif.DmFit

/-- The array `hasim_.phidif[72576]`, a global variable: dmfit_func.c:17-20.  Entries outside its
range have no meaning. -/
abbrev Mem := Int → ℝ

/-- The place of `phidif(l, k, j)`, dmfit_load.c:80, dmfit_comm.c:82-83. -/
def cell (l k j : Int) : Int := l + (k + j * 24) * 252 - 6299

/-- Reading an entry of `phidif`. -/
def read (m : Mem) (i : Int) : Res ℝ := if 0 ≤ i ∧ i < 72576 then .ok (m i) else .ub

/-- Writing an entry of `phidif`. -/
def write (m : Mem) (i : Int) (x : ℝ) : Res Mem :=
  if 0 ≤ i ∧ i < 72576 then .ok (Function.update m i x) else .ub

/-- `yieldget_`, dmfit_comm.c:32-86, for `hasmooth == 0`, to which dmfit_func.c:110-120 always sets
it. -/
def yieldget (m : Mem) (zi mxi ch : Int) : Res ℝ := read m (cell zi mxi ch)

/-- An entry of the array given to `ifind_`, after `array -= imin + 10`: dmfit_comm.c:104-105. -/
def ent (a : List ℝ) (imin t : Int) : Res ℝ :=
  if t - (imin + 10) < 0 then .ub else vget a (t - (imin + 10)).toNat

/-- The variables of `ifind_`: dmfit_comm.c:100. -/
structure Srch where
  i : Int
  iold : Int
  imint : Int
  imaxt : Int

/-- How a round of the search ends: the bin is found, the program is stopped, or one more round. -/
inductive Out where
  | found (i : Int) (ipl : ℝ)
  | stop
  | more (s : Srch)

/-- The end of a round, when the bin is not found: dmfit_comm.c:123-134. -/
noncomputable def advance (v x : ℝ) (s : Srch) : Out :=
  open Classical in
  let inew := if v > x then (s.i + 1 + s.imaxt) / 2 else (s.imint + s.i) / 2
  let imint := if v > x then s.i else s.imint
  let imaxt := if v > x then s.imaxt else s.i
  if s.iold = inew then .stop else .more ⟨inew, inew, imint, imaxt⟩

/-- A round of the search: dmfit_comm.c:117-135. -/
noncomputable def round (a : List ℝ) (imin : Int) (v : ℝ) (s : Srch) : Res Out := do
  let x ← ent a imin s.i
  let y ← ent a imin (s.i + 1)
  return open Classical in
    if v ≥ x ∧ v < y then .found (s.i - 10) ((v - x) / (y - x)) else advance v x s

/-- The rounds.  `s_stop`, which ends the program, counts as an exception; a search that is not
finished after as many rounds as given (in the code it would go on for ever) as undefined
behaviour. -/
noncomputable def rounds (a : List ℝ) (imin : Int) (v : ℝ) : Nat → Srch → Res (Option (Int × ℝ))
  | 0, _ => .ub
  | n + 1, s => do
    match ← round a imin v s with
    | .found i p => .ok (some (i, p))
    | .stop => .throws
    | .more s' => rounds a imin v n s'

/-- `ifind_`, dmfit_comm.c:90-136: the bin of the value and its place therein, `none` for
`ii = -5`. -/
noncomputable def ifind (v : ℝ) (a : List ℝ) (imin imax : Int) : Res (Option (Int × ℝ)) := do
  let x ← ent a imin (imin + 10)
  let y ← ent a imin (imax + 10 + 1)
  if (open Classical in decide (v < x ∨ v ≥ y)) then .ok none
  else rounds a imin v a.length ⟨(imax + 10 + (imin + 10)) / 2, 0, imin + 10, imax + 10⟩

/-- The masses of the simulations, `mi`: dmfit_func.c:246-269. -/
noncomputable def mi : List ℝ :=
  [2, 4, 6, 8, 10, 25, 50, 80.3, 91.2, 100, 150, 176, 200, 250, 350, 500, 750, 1000, 1500, 2000,
    3000, 5000, 7000, 10000]

/-- The second column of `zindex`, for the indices -1 to 250: dmfit_func.c:277-281. -/
noncomputable def zcentres : List ℝ :=
  (List.range 252).map fun k : Nat => (((k : Int) - 1 : Int) : ℝ) / 250 + 0.5 / 250

/-- The channel in the table: dmfit_func.c:186-224. -/
def chref (ch : Int) : Int :=
  if ch = 1 then 9 else if ch = 2 then 7 else if ch = 3 then 4 else if ch = 4 then 2
  else if ch = 5 then 3 else if ch = 6 then 8 else if ch = 7 then 5 else if ch = 8 then 6
  else if ch = 9 then 1 else if ch = 10 then 10 else if ch = 11 then 11 else if ch = 12 then 12
  else 4

/-- An entry of `mi`, from 1 on. -/
noncomputable def mass (k : Int) : Res ℝ := if k - 1 < 0 then .ub else vget mi (k - 1).toNat

/-- Interpolation of a spectrum of the table: dmfit_func.c:306-307, 313-314, 316-317. -/
noncomputable def along (m : Mem) (zi : Int) (zpl : ℝ) (mxi ch : Int) : Res ℝ := do
  let a ← yieldget m zi mxi ch
  let b ← yieldget m (zi + 1) mxi ch
  return (1 - zpl) * a + zpl * b

/-- Interpolation between the masses: dmfit_func.c:296-322. -/
noncomputable def across (m : Mem) (mx ee : ℝ) (ch zi : Int) (zpl : ℝ) : Res ℝ := do
  let r ← ifind mx mi 1 23
  let m1i : Int := match r with | some p => p.1 | none => -5
  let mp1 ← mass m1i
  let m2i := m1i + 1
  let mp2 ← mass m2i
  let top ← mass 24
  if (open Classical in decide (mx = top)) then do
    let flux ← along m zi zpl 24 ch
    return flux / ee
  else do
    let phi1 ← along m zi zpl m1i ch
    let phi2 ← along m zi zpl m2i ch
    return (phi1 + (phi2 - phi1) * (mx - mp1) * (mx + mp1) / ((mp2 - mp1) * (mp2 + mp1))) / ee

/-- `dmfit_de__`, dmfit_func.c:31-332: the number of photons per energy.  The energy is positive. -/
noncomputable def de (m : Mem) (mx : ℝ) (ch : Int) (ee : ℝ) : Res ℝ := do
  let top ← mass 24
  if (open Classical in decide (ee ≥ mx ∨ mx > top)) then .ok 0
  else do
    let z := (Real.log (ee / mx) / Real.log 10 + 10) / 10
    match ← ifind z zcentres (-1) 249 with
    | none => .ok 0
    | some p => if p.1 ≥ 250 then .ok 0 else across m mx ee (chref ch) p.1 p.2

/-- `dmfit_dm__`, dmfit_func.c:335-366. -/
noncomputable def dm (m : Mem) (mx : ℝ) (ch : Int) (ee : ℝ) : Res ℝ := do
  let delta : ℝ := 1e-4
  let m1 := mx / (delta + 1)
  let d1 := mx - m1
  let m2 := mx * (delta + 1)
  let d2 := m2 - mx
  if (open Classical in decide (m1 > ee)) then do
    let a ← de m mx ch ee
    let b ← de m m1 ch ee
    let c ← de m m2 ch ee
    let a' ← de m mx ch ee
    return ((a - b) / d1 + (c - a') / d2) / 2
  else do
    let c ← de m m2 ch ee
    let a' ← de m mx ch ee
    return (c - a') / d2

/-- `DMFitFunction::value`, DMFitFunction.cxx:59-74.  The channels, which the code truncates to
integers, are integers; a mass of zero, by which the code divides, counts as undefined. -/
noncomputable def value (mem : Mem) (f : Fn) (e : ℝ) : Res ℝ := do
  let x := e * 1e-3
  let n := f.norm.eff
  let sv := f.sigmav.eff
  let m := f.mass.eff
  let b := f.bratio.eff
  let d0 ← de mem m f.channel0 x
  let d1 ← de mem m f.channel1 x
  if (open Classical in decide (m = 0)) then .ub
  else .ok (n * sv / m / m * (b * d0 + (1 - b) * d1) / 1000 / (8 * Real.pi))

/-- `DMFitFunction::derivByParamImp`, DMFitFunction.cxx:76-122. -/
noncomputable def deriv (mem : Mem) (f : Fn) (e : ℝ) (w : Which) : Res ℝ := do
  let x := e * 1e-3
  let n := f.norm.eff
  let sv := f.sigmav.eff
  let m := f.mass.eff
  let b := f.bratio.eff
  let m2 := m * m
  match w with
  | .unknown => .throws
  | .norm => do
    let d0 ← de mem m f.channel0 x
    let d1 ← de mem m f.channel1 x
    return f.norm.scale * sv / m2 * (b * d0 + (1 - b) * d1) / 1000 / (8 * Real.pi)
  | .sigmav => do
    let d0 ← de mem m f.channel0 x
    let d1 ← de mem m f.channel1 x
    return n * f.sigmav.scale / m2 * (b * d0 + (1 - b) * d1) / 1000 / (8 * Real.pi)
  | .mass => do
    let q0 ← dm mem m f.channel0 x
    let q1 ← dm mem m f.channel1 x
    let d0 ← de mem m f.channel0 x
    let d1 ← de mem m f.channel1 x
    return f.sigmav.scale * n * sv / m2
      * (b * q0 + (1 - b) * q1 - 2 / m * (b * d0 + (1 - b) * d1)) / 1000 / (8 * Real.pi)
  | .bratio => do
    let d0 ← de mem m f.channel0 x
    let d1 ← de mem m f.channel1 x
    return f.mass.scale * n * sv / m2 * (d0 - d1) / 1000 / (8 * Real.pi)
  | .channel0 => return 0
  | .channel1 => return 0

/-- A list-directed read of `n` numbers: it goes on over the ends of lines, and leaves what is left
of the last line.  `none`: the file ends before. -/
def readList : Nat → Lines → Option (List ℝ × Lines)
  | _, [] => none
  | n, r :: rs =>
    if n ≤ r.length then some (r.take n, rs)
    else match readList (n - r.length) rs with
      | some (xs, rest) => some (r ++ xs, rest)
      | none => none

/-- Clearing the table: dmfit_load.c:77-83. -/
noncomputable def clear (m : Mem) : Res Mem :=
  loop (fun j m => loop (fun k m => loop (fun l m => write m (cell l k j) 0) 0 251 m) 1 24 m) 1 12 m

/-- Putting the numbers read into the table: dmfit_load.c:100-104. -/
noncomputable def fill (row : List ℝ) (k j : Nat) (m : Mem) : Res Mem :=
  loop (fun l m => do
    let x ← vget row l
    write m (cell l k j) x) 0 250 m

/-- Reading one spectrum: dmfit_load.c:98-106.  All entries of `milow` are 1, so that the
condition of line 98 is met.  The end of the file, at which the program ends, counts as an
exception. -/
noncomputable def readOne (k j : Nat) (s : Mem × Lines) : Res (Mem × Lines) :=
  match readList 250 s.2 with
  | none => .throws
  | some (row, rest) => do
    let m ← fill row k j s.1
    return (m, rest)

/-- Reading the file: dmfit_load.c:96-108. -/
noncomputable def readAll (s : Mem × Lines) : Res (Mem × Lines) :=
  loop (fun j s => loop (fun k s => readOne k j s) 1 24 s) 1 12 s

/-- The ends of one spectrum: dmfit_load.c:115-126; the assignments of the entries to themselves are
left out. -/
noncomputable def endsOne (k j : Nat) (m : Mem) : Res Mem := do
  let a ← read m ((k + j * 24) * 252 - 6299)
  let m ← write m ((k + j * 24) * 252 - 6300) a
  let b ← read m (cell (250 - 1) k j)
  write m (cell 250 k j) b

/-- The ends of all: dmfit_load.c:113-128. -/
noncomputable def ends (m : Mem) : Res Mem :=
  loop (fun j m => loop (fun k m => endsOne k j m) 1 24 m) 1 12 m

/-- `dmfit_load__`, dmfit_load.c:29-132, called by `DMFitFunction::readFunction`,
DMFitFunction.cxx:124-137. -/
noncomputable def load (m : Mem) (file : Lines) : Res Mem := do
  let m ← clear m
  let s ← readAll (m, file)
  ends s.1

end Verif.DmFit
