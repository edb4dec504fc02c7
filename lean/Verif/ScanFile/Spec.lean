import Verif.ScanFile.Types
/-
What the file of a scan is to hold.
-/
namespace Verif.ScanFile.Spec

open TsScan (Grid)

/-- Number of positions of the grid. -/
def positions (g : Grid) : Nat := g.nx * g.ny.getD 1

/-- The quantities that do not depend on energy. -/
def IsMap : Quantity → Prop
  | .tsMap | .okMap | .normMap | .symMap | .posMap | .negMap => True
  | _ => False

/-- The quantities that depend on the normalization. -/
def IsScan : Quantity → Prop
  | .normScan | .dllScan => True
  | _ => False

/-- What is asked for: test statistic and status always, other maps with a scan over positions, quantities by energy with a spectrum,
scans if there are normalizations; those of the standard fitter from a level on that differs with the quantity. -/
def Asked (o : Opts) (n : Name) : Prop :=
  match n.q with
  | .tsMap => n.st = true → 1 < o.level ∧ o.doMap = true
  | .okMap => n.st = false
  | .normMap | .symMap | .posMap | .negMap => n.st = false ∧ o.doMap = true
  | .tsCube | .normCube | .llCube => o.doSed = true ∧ (n.st = true → 2 < o.level)
  | .okCube | .ulCube | .symCube | .posCube | .negCube => n.st = false ∧ o.doSed = true
  | .normScan | .dllScan => 0 < o.nNorm ∧ (n.st = true → 3 < o.level)

/-- The number of rows: positions, or one if there is no scan over positions. -/
def rows (g : Grid) (o : Opts) : Nat := if o.doMap then positions g else 1

open Classical in
/-- The number of values in a cell.  Without a scan over positions a quantity that does not depend on energy should have one value,
but the program keeps all positions. -/
noncomputable def width (g : Grid) (o : Opts) (q : Quantity) : Nat :=
  if IsMap q then (if o.doMap then 1 else positions g)
  else if IsScan q then g.nE * o.nNorm
  else g.nE

/-- Table `t` holds what run `r` found for all quantities asked for of kind `p`, and nothing else. -/
structure Holds (g : Grid) (o : Opts) (r : Found) (p : Quantity → Prop) (t : Table) : Prop where
  names : ∀ n, n ∈ t.cols.map Column.name ↔ Asked o n ∧ p n.q
  once : (t.cols.map Column.name).Nodup
  rows : ∀ c ∈ t.cols, c.cells.length = rows g o
  cells : ∀ c ∈ t.cols, ∀ cell ∈ c.cells, cell.length = width g o c.name.q
  value : ∀ c ∈ t.cols, ∀ i, i < Spec.rows g o → ∀ d, d < width g o c.name.q →
    ∃ cell, c.cells[i]? = some cell ∧ cell[d]? = some (r.vals c.name (i + d * Spec.rows g o))

/-- The test statistic that is in the primary part: that of the standard fitter if there is one. -/
def primaryName (o : Opts) : Name := ⟨.tsMap, decide (1 < o.level ∧ o.doMap = true)⟩

/-- The image of that run `r`, if the positions are a grid `nx` × `ny`. -/
def primary (g : Grid) (o : Opts) (r : Found) : Option (List Nat × List ℝ) :=
  g.ny.map (fun ny => ([g.nx, ny], (List.range (g.nx * ny)).map (r.vals (primaryName o))))

/-- The last run whose first fit succeeded. -/
def lastGood (l : List (Opts × Found)) : Option (Opts × Found) := (l.filter (fun p => p.2.status = 0)).getLast?

/-- The column of a new quantity in a header has its unit. -/
def HasUnit (h : Header) (name unit : String) : Prop := ∃ i, h.kws (.ttype i) = some name ∧ h.kws (.tunit i) = some unit

end Verif.ScanFile.Spec
