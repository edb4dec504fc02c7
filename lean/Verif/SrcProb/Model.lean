import Verif.SrcProb.Types
import Verif.Basic
/-
Model of the tool `gtsrcprob`, src/gtsrcprob/gtsrcprob.cxx.

Taken from the library tip: names of columns are compared in lower case, `getValidFields` gives them in
lower case, and `appendField` throws if the table has the column.  Values are reals (in the file they
have single precision); a quotient by zero is a value that is not a finite number.  The output is a copy
of the event file (`fcopy`).
-/
namespace Verif.SrcProb
open Verif

/-- `getEvents` with the cuts of the region of interest, which is the default of
EventContainer.h:51 and used in gtsrcprob.cxx:165; EventContainer.cxx:187-193. -/
def events (c : Cfg) (f : EvFile) : List Nat := ((List.range f.nrow).map f.ev).filter c.accept

/-- `getSourceList`, gtsrcprob.cxx:168-178. -/
def sources (c : Cfg) : List Name :=
  match c.list with
  | none => c.model.map Src.name
  | some l => l

/-- `appendField`, a column of zeros. -/
def append (cols : Cols) (n : Name) : Res Cols :=
  match cols (low n) with
  | some _ => .throws
  | none => .ok fun k => if k = low n then some (fun _ => some 0) else cols k

/-- The columns, gtsrcprob.cxx:194-213: `columns`, what the file has at first, is not brought up to
date. -/
def prepare (columns : Cols) : List Name → Cols → Res Cols
  | [], cols => .ok cols
  | n :: ns, cols =>
    if (columns (low n)).isNone then do
      let cols ← append cols n
      prepare columns ns cols
    else prepare columns ns cols

/-- A quotient of numbers with double precision. -/
noncomputable def quot (a b : ℝ) : Option ℝ := open Classical in if b = 0 then none else some (a / b)

/-- The density of one source, gtsrcprob.cxx:229-233; `events.at(j)`. -/
noncomputable def addDens (es : List Nat) (j : Nat) (s : (Name → Option ℝ) × ℝ) (x : Src) : Res ((Name → Option ℝ) × ℝ) :=
  match es[j]? with
  | none => .throws
  | some e => .ok (fun k => if k = x.name then some (x.dens e) else s.1 k, s.2 + x.dens e)

/-- The map of densities and their sum for a row, gtsrcprob.cxx:226-234. -/
noncomputable def densities (model : List Src) (es : List Nat) (j : Nat) : Res ((Name → Option ℝ) × ℝ) :=
  model.foldlM (addDens es j) (fun _ => none, 0)

/-- `row[name].set`. -/
def setCell (cols : Cols) (n : Name) (j : Nat) (v : Option ℝ) : Res Cols :=
  match cols (low n) with
  | none => .throws
  | some c => .ok fun k => if k = low n then some (fun i => if i = j then v else c i) else cols k

/-- The sources asked for in one row, gtsrcprob.cxx:236-239: `densities[*name]` makes a zero for a name
that is not there. -/
noncomputable def writeRow (d : (Name → Option ℝ) × ℝ) (j : Nat) : List Name → Cols → Res Cols
  | [], cols => .ok cols
  | n :: ns, cols => do
    let cols ← setCell cols n j (quot ((d.1 n).getD 0) d.2)
    writeRow d j ns cols

/-- `writeDensities`, gtsrcprob.cxx:180-242. -/
noncomputable def run (c : Cfg) (f : EvFile) : Res EvFile := do
  let cols ← prepare f.cols (sources c) f.cols
  let cols ← loop (fun j cols => do
    let d ← densities c.model (events c f) j
    writeRow d j (sources c) cols) 0 f.nrow cols
  .ok { f with cols := cols }

/-- Several runs, each on the output of the one before. -/
noncomputable def runs : List Cfg → EvFile → Res EvFile
  | [], f => .ok f
  | c :: cs, f => do
    let f ← run c f
    runs cs f

end Verif.SrcProb
