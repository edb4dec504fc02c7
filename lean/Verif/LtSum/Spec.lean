import Verif.LtSum.Types
/-
What a user expects of the sum of livetime cubes.
-/
namespace Verif.LtSum.Spec
open Verif.LtSum

/-- The livetime in a cell: pixel `i`, bin `j`; 0 outside. -/
def cell (t : Tab) (i j : Nat) : ℝ := ((t.rows[i]?.getD [])[j]?).getD 0

/-- The largest zenith angle: 180 degrees unless given. -/
def zen (t : Tab) : ℝ :=
  match t.zenmax with
  | none => 180
  | some z => z

/-- Tables with the same cells and the same cut in zenith angle. -/
def Alike (a b : Tab) : Prop := a.rows.map List.length = b.rows.map List.length ∧ zen a = zen b

/-- Files that may be added. -/
def Compatible (a b : LtFile) : Prop := a.bounds = b.bounds ∧ Alike a.main b.main ∧ Alike a.weighted b.weighted

/-- `s` is the sum of the tables: the cells are those of each, their livetimes add up, and the times
run from the first start to the last stop. -/
def IsSum (ts : List Tab) (s : Tab) : Prop :=
  (∀ t ∈ ts, Alike t s) ∧ (∀ i j, cell s i j = (ts.map fun t => cell t i j).sum) ∧
    (∀ t ∈ ts, s.tstart ≤ t.tstart) ∧ (∃ t ∈ ts, s.tstart = t.tstart) ∧
    (∀ t ∈ ts, t.tstop ≤ s.tstop) ∧ (∃ t ∈ ts, s.tstop = t.tstop)

/-- The same for files. -/
def IsSumFile (fs : List LtFile) (s : LtFile) : Prop :=
  (∀ f ∈ fs, f.bounds = s.bounds) ∧ IsSum (fs.map LtFile.main) s.main ∧ IsSum (fs.map LtFile.weighted) s.weighted

end Verif.LtSum.Spec
