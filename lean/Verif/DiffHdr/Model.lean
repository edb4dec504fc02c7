import Mathlib.Tactic.Common
import Verif.Basic
import Verif.DiffHdr.Types
/-
Model of what `gtdiffrsp` does with its list of event files before and between the computations of
responses (src/diffuseResponses/diffuseResponses.cxx:179-203, 211-283).  What is done with a file
that has passed (lines 190-202, see Verif.DiffRsp) is a parameter: the file that results and whether
there was no exception.
-/
namespace Verif.DiffHdr

variable {β : Type}

/-- `std::string::find`: the first place where `pat` is. -/
def find (pat : Name) : Name → Option Nat
  | [] => if pat = [] then some 0 else none
  | a :: s => if pat.isPrefixOf (a :: s) then some 0 else (find pat s).map (· + 1)

/-- The result of `find` as a `size_t`: `npos` is the largest number. -/
def pos (r : Option Nat) : Nat := r.getD (2 ^ 64 - 1)

/-- `length() - k` as a `size_t`. -/
def off (s : Name) (k : Nat) : Nat := (s.length + 2 ^ 64 - k) % 2 ^ 64

/-- Whether a file is refused for its name, diffuseResponses.cxx:183-184. -/
def refused (s : Name) : Bool :=
  decide (pos (find ['.', 'g', 'z'] s) = off s 3) || decide (pos (find ['.', 'Z'] s) = off s 2)

/-- `testPassVersion`, diffuseResponses.cxx:211-231: `m_passVer` afterwards. -/
def testPass (m : Name) (f : File β) : Res Name :=
  let v := match f.pass with
    | none => ['N', 'O', 'N', 'E']
    | some v => v
  if m = [] then .ok v else if m ≠ v then .throws else .ok m

/-- Whether a column is taken for one with responses, diffuseResponses.cxx:264-265. -/
def taken (c : Col) : Bool :=
  match c with
  | .word n => (find ['_', '_'] n).isSome || (find [':', ':'] n).isSome
  | .difrsp _ => false

/-- The name of a column. -/
def colName : Col → Name
  | .word n => n
  | .difrsp i => ['D', 'I', 'F', 'R', 'S', 'P'] ++ (Nat.repr i).toList

/-- The columns with those taken renamed, the first to `DIFRSP<j>`, diffuseResponses.cxx:271-282. -/
def rename : Nat → List (Col × β) → List (Col × β)
  | _, [] => []
  | j, (c, v) :: l => if taken c then (.difrsp j, v) :: rename (j + 1) l else (c, v) :: rename j l

/-- The names of the columns taken, diffuseResponses.cxx:262-268. -/
def indices (l : List (Col × β)) : List Name := (l.filter fun c => taken c.1).map fun c => colName c.1

/-- `convert_header`, diffuseResponses.cxx:257-283. -/
def convertHeader (f : File β) : File β :=
  { f with
    ndif := some (indices f.cols).length
    label := fun i => if i < (indices f.cols).length then (indices f.cols)[i]? else f.label i
    cols := rename 0 f.cols }

/-- `checkColumnVersion`, diffuseResponses.cxx:233-255. -/
def checkVersion (convert : Bool) (f : File β) : Res (File β) :=
  match f.ndif with
  | some _ => .ok f
  | none => if convert then .ok (convertHeader f) else .throws

/-- The loop over the files, diffuseResponses.cxx:182-203: the files afterwards, and whether there
was no exception. -/
def files (convert : Bool) (rest : File β → File β × Bool) : Name → List (Name × File β) → List (File β) × Bool
  | _, [] => ([], true)
  | m, (s, f) :: l =>
    if refused s then (f :: l.map (·.2), false)
    else match testPass m f with
      | .ok m =>
        match checkVersion convert f with
        | .ok g =>
          if (rest g).2 then
            ((rest g).1 :: (files convert rest m l).1, (files convert rest m l).2)
          else ((rest g).1 :: l.map (·.2), false)
        | _ => (f :: l.map (·.2), false)
      | _ => (f :: l.map (·.2), false)

/-- `run`, diffuseResponses.cxx:166-204, with `m_passVer` empty at first, line 141. -/
def run (convert : Bool) (rest : File β → File β × Bool) (l : List (Name × File β)) : List (File β) × Bool :=
  files convert rest [] l

end Verif.DiffHdr
