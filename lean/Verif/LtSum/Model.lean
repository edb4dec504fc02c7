import Verif.LtSum.Types
import Verif.Basic
/-
Model of the tool `gtltsum`, src/gtaddlivetime/gtaddlivetime.cxx.

Simplifications: times and livetimes are reals; the merging of good time intervals and of the DSS
keywords (library dataSubselector) and the dates are left out.  That `fcopy` copies the file with all
its extensions, and throws if the output exists and may not be replaced, is taken from the library
st_facilities.
-/
namespace Verif.LtSum
open Verif

/-- Opening a file to read. -/
def open' (fs : FS) (k : Nat) : Res LtFile :=
  match fs k with
  | none => .throws
  | some f => .ok f

/-- The comparison of the limits, gtaddlivetime.cxx:124-131. -/
noncomputable def differ (master other : List ℝ) : Bool :=
  open Classical in
  decide (other.length ≠ master.length) || (List.zip other master).any fun p => decide (p.1 ≠ p.2)

/-- The loop of `check_costheta_bounds`, gtaddlivetime.cxx:121-132. -/
noncomputable def checkRest (fs : FS) (master : List ℝ) : List Nat → Res Unit
  | [] => .ok ()
  | k :: ks => do
    let f ← open' fs k
    if differ master f.bounds then .throws else checkRest fs master ks

/-- `check_costheta_bounds`, gtaddlivetime.cxx:118-133; `front()` of an empty list is undefined. -/
noncomputable def check (fs : FS) : List Nat → Res Unit
  | [] => .ub
  | k :: ks => do
    let f ← open' fs k
    checkRest fs f.bounds ks

/-- `zenmax`, gtaddlivetime.cxx:135-145. -/
noncomputable def zenOf (t : Tab) : ℝ := t.zenmax.getD 180

/-- The livetimes of a row, gtaddlivetime.cxx:189-201. -/
noncomputable def addRow (acc my : List ℝ) : Res (List ℝ) :=
  if acc.length ≠ my.length then .throws else .ok (List.zipWith (· + ·) acc my)

/-- The loop over the rows, gtaddlivetime.cxx:188-202. -/
noncomputable def addRows : List (List ℝ) → List (List ℝ) → Res (List (List ℝ))
  | a :: as, m :: ms => do
    let r ← addRow a m
    let rs ← addRows as ms
    .ok (r :: rs)
  | as, _ => .ok as

/-- The tests and sums for one further file, gtaddlivetime.cxx:168-211; `acc` holds `rows`, `tstart`,
`tstop`. -/
noncomputable def addTab (zenmax0 : ℝ) (acc : Tab) (t : Tab) : Res Tab :=
  open Classical in
  if zenOf t ≠ zenmax0 then .throws
  else if acc.rows.length ≠ t.rows.length then .throws
  else do
    let rows ← addRows acc.rows t.rows
    .ok { acc with
      rows := rows
      tstart := if t.tstart < acc.tstart then t.tstart else acc.tstart
      tstop := if acc.tstop < t.tstop then t.tstop else acc.tstop }

/-- The loop over the files, gtaddlivetime.cxx:167-214. -/
noncomputable def addRest (fs : FS) (sel : LtFile → Tab) (zenmax0 : ℝ) (acc : Tab) : List Nat → Res Tab
  | [] => .ok acc
  | k :: ks => do
    let f ← open' fs k
    let acc ← addTab zenmax0 acc (sel f)
    addRest fs sel zenmax0 acc ks

/-- The sums of one table, gtaddlivetime.cxx:147-214. -/
noncomputable def total (fs : FS) (sel : LtFile → Tab) : List Nat → Res Tab
  | [] => .ub
  | k :: ks => do
    let f ← open' fs k
    addRest fs sel (zenOf (sel f)) (sel f) ks

/-- What is written over a table of the output, gtaddlivetime.cxx:216-228: as many rows as it has
(`rows.at(i)`), and the times. -/
def overwrite (t sum : Tab) : Res Tab :=
  if sum.rows.length < t.rows.length then .throws
  else .ok { t with rows := sum.rows.take t.rows.length, tstart := sum.tstart, tstop := sum.tstop }

/-- A file is set. -/
def put (fs : FS) (k : Nat) (f : LtFile) : FS := fun i => if i = k then some f else fs i

/-- `addTables` for the first table, gtaddlivetime.cxx:147-237. -/
noncomputable def addMain (fs : FS) (c : Call) : Res FS := do
  let s ← total fs LtFile.main c.list
  let o ← open' fs c.out
  let t ← overwrite o.main s
  .ok (put fs c.out { o with main := t })

/-- `addTables` for the second table, gtaddlivetime.cxx:147-237. -/
noncomputable def addWeighted (fs : FS) (c : Call) : Res FS := do
  let s ← total fs LtFile.weighted c.list
  let o ← open' fs c.out
  let t ← overwrite o.weighted s
  .ok (put fs c.out { o with weighted := t })

/-- The copy of the first file, gtaddlivetime.cxx:86-87. -/
def copy (fs : FS) (c : Call) : Res FS :=
  match c.list with
  | [] => .ub
  | k :: _ =>
    match fs k with
    | none => .throws
    | some f => if (fs c.out).isSome = true ∧ c.clobber = false then .throws else .ok (put fs c.out f)

/-- A step that may fail leaves the files as they are. -/
def andThen (s : FS × Res Unit) (f : FS → Res FS) : FS × Res Unit :=
  match s.2 with
  | .ok _ =>
    match f s.1 with
    | .ok fs => (fs, .ok ())
    | .throws => (s.1, .throws)
    | .ub => (s.1, .ub)
  | r => (s.1, r)

/-- `AddLivetime::run`, gtaddlivetime.cxx:83-90: the files afterwards, and whether it failed. -/
noncomputable def run (fs : FS) (c : Call) : FS × Res Unit :=
  andThen (andThen (andThen (fs, check fs c.list) fun fs => copy fs c) fun fs => addMain fs c)
    fun fs => addWeighted fs c

end Verif.LtSum
