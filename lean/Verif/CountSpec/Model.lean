import Verif.Nobs.Model
import Verif.CountSpec.Types
import Mathlib.Analysis.SpecialFunctions.Log.Basic
/-
Model of `CountsSpectra` (src/CountsSpectra.cxx, Likelihood/CountsSpectra.h).
-/
namespace Verif.CountSpec

/-- `CountsSpectra`: CountsSpectra.h:68-73. -/
structure Obj where
  like : Like
  ebounds : List ℝ

/-- The constructor: CountsSpectra.h:35-44. -/
def create (l : Like) : Obj :=
  match l.bins with
  | some b => ⟨l, b.energies⟩
  | none => ⟨l, []⟩

/-- `setEbounds`: CountsSpectra.cxx:23-35.  For `nbounds = 0` the number of turns wraps around
and the vector grows until the memory is used up: an exception. -/
noncomputable def setEbounds (o : Obj) (emin emax : ℝ) (n : Nat) : Res Obj :=
  if o.like.bins.isSome then .throws
  else if n = 0 then .throws
  else .ok { o with
    ebounds := (List.range (n - 1)).map (fun k : Nat =>
      emin * Real.exp ((k : ℝ) * (Real.log (emax / emin) / ((n : ℝ) - 1)))) ++ [emax] }

/-- `check_ebounds`: CountsSpectra.cxx:217-221. -/
def checkEbounds (o : Obj) : Res Unit :=
  if o.ebounds.length = 0 then .throws else .ok ()

/-- A value for each bin `[E_k, E_{k+1}]`: the loops CountsSpectra.cxx:58-60, 82-84, 201-204. -/
def perBin (f : ℝ → ℝ → β) : List ℝ → List β
  | a :: b :: es => f a b :: perBin f (b :: es)
  | _ => []

/-- `getSource`: the source of that name. -/
def getSource (l : Like) (n : Name) : Option Src := l.srcs.find? (fun s => s.name = n)

/-- `getSrcCounts`: CountsSpectra.cxx:37-62.  Without bounds the argument of `reserve` wraps
around, which throws. -/
def srcCounts (o : Obj) (n : Name) : Res (List ℝ) :=
  match getSource o.like n with
  | none => .throws
  | some s =>
    if o.ebounds.length = 0 then .throws
    else match o.like.bins with
      | some b => .ok (b.model n)
      | none => .ok (perBin s.npred o.ebounds)

/-- `getSrcFluxes`: CountsSpectra.cxx:64-85. -/
def srcFluxes (o : Obj) (n : Name) : Res (List ℝ) := do
  checkEbounds o
  match getSource o.like n with
  | none => .throws
  | some s => if s.kind = .point then .ok (perBin s.flux o.ebounds) else .throws

/-- `srcCounts[j] += componentCounts[j]`: CountsSpectra.cxx:99-101; undefined if the component
is longer. -/
def addTo : List ℝ → List ℝ → Res (List ℝ)
  | ts, [] => .ok ts
  | [], _ :: _ => .ub
  | t :: ts, c :: cs => do
    let r ← addTo ts cs
    .ok ((t + c) :: r)

/-- The loop over the other sources: CountsSpectra.cxx:94-102. -/
def addAll (o : Obj) : List Name → List ℝ → Res (List ℝ)
  | [], t => .ok t
  | n :: ns, t => do
    let c ← srcCounts o n
    let t' ← addTo t c
    addAll o ns t'

/-- `getTotalSrcCounts`: CountsSpectra.cxx:87-104. -/
def totalCounts (o : Obj) : Res (List ℝ) :=
  match o.like.srcs.map Src.name with
  | [] => .ok []
  | n :: ns => do
    let t ← srcCounts o n
    addAll o ns t

/-- `getObsCounts`: CountsSpectra.cxx:208-215, with `EventContainer::nobs`. -/
noncomputable def obsCounts (o : Obj) : Res (List ℝ) :=
  match o.like.bins with
  | some b => .ok b.counts
  | none => do
    checkEbounds o
    Nobs.nobs (fun e : ℝ => e) (fun _ => 1) o.ebounds o.like.events

/-- The counts of all sources: CountsSpectra.cxx:130-137. -/
def collect (o : Obj) : List Name → Res (List (List ℝ))
  | [] => .ok []
  | n :: ns => do
    let c ← srcCounts o n
    let cs ← collect o ns
    .ok (c :: cs)

/-- `v.at(k)` -/
def at' (l : List ℝ) (k : Nat) : Res ℝ :=
  match l[k]? with
  | some x => .ok x
  | none => .throws

/-- The values of one row: CountsSpectra.cxx:143-146, 176-181. -/
def row (k : Nat) : List (List ℝ) → Res (List ℝ)
  | [] => .ok []
  | c :: cs => do
    let x ← at' c k
    let xs ← row k cs
    .ok (x :: xs)

/-- The rows `k, …, k + n - 1`: CountsSpectra.cxx:142-147, 175-182. -/
def rowsFrom (cs : List (List ℝ)) : Nat → Nat → Res (List (List ℝ))
  | _, 0 => .ok []
  | k, n + 1 => do
    let r ← row k cs
    let rs ← rowsFrom cs (k + 1) n
    .ok (r :: rs)

/-- `writeCounts`: CountsSpectra.cxx:117-149.  The columns are addressed by position (the names
of the sources are distinct, and none is `ObsCounts`). -/
noncomputable def countsTable (o : Obj) : Res Table := do
  let obs ← obsCounts o
  let cs ← collect o (o.like.srcs.map Src.name)
  let rs ← rowsFrom (obs :: cs) 0 (o.ebounds.length - 1)
  .ok ⟨"COUNTS_SPECTRA".toList, "ObsCounts".toList :: o.like.srcs.map Src.name, rs⟩

/-- The fluxes of the point sources: CountsSpectra.cxx:160-169. -/
def collectFluxes (o : Obj) : List Src → Res (List (List ℝ))
  | [] => .ok []
  | s :: ss =>
    if s.kind = .point then do
      let c ← srcFluxes o s.name
      let cs ← collectFluxes o ss
      .ok (c :: cs)
    else collectFluxes o ss

/-- `writeFluxes`: CountsSpectra.cxx:151-185. -/
def fluxTable (o : Obj) : Res Table := do
  let cs ← collectFluxes o o.like.srcs
  let names := (o.like.srcs.filter (fun s => s.kind = .point)).map Src.name
  if 0 < cs.length then do
    let rs ← rowsFrom cs 0 (o.ebounds.length - 1)
    .ok ⟨"FLUXES".toList, names, rs⟩
  else .ok ⟨"FLUXES".toList, names, []⟩

/-- `writeEbounds`: CountsSpectra.cxx:187-206. -/
def eboundsTable (o : Obj) : Table :=
  ⟨"EBOUNDS".toList, ["E_MIN".toList, "E_MAX".toList], perBin (fun a b => [a, b]) o.ebounds⟩

/-- The file (`none`: there is none) and the way the call ends. -/
structure Out where
  file : Option (List Table)
  result : Res Unit

/-- The end of a call that failed. -/
def failed : Res α → Res Unit
  | .ok _ => .ok ()
  | .throws => .throws
  | .ub => .ub

/-- `writeTable` over the file `old`: CountsSpectra.cxx:106-115.  The old file is removed first.
A table that fails is left without rows. -/
noncomputable def writeTable (o : Obj) (_old : Option (List Table)) : Out :=
  match countsTable o with
  | .ok c =>
    match fluxTable o with
    | .ok f => ⟨some [c, f, eboundsTable o], .ok ()⟩
    | r => ⟨some [c, ⟨"FLUXES".toList, [], []⟩], failed r⟩
  | r => ⟨some [⟨"COUNTS_SPECTRA".toList, [], []⟩], failed r⟩

/-- `likelihood::writeCountsSpectra`: likelihood.cxx:458-470; `emin`, `emax` are the energies of
the region of interest. -/
noncomputable def gtlikeSpectra (l : Like) (emin emax : ℝ) (old : Option (List Table)) : Out :=
  match l.bins with
  | some _ => writeTable (create l) old
  | none =>
    match setEbounds (create l) emin emax 21 with
    | .ok o => writeTable o old
    | r => ⟨old, failed r⟩

end Verif.CountSpec
