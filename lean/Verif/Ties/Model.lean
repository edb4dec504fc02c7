import Verif.Ties.Types
/-
src/TiedParameter.cxx, with the parts of src/SourceModel.cxx and src/Composite2.cxx that keep
the parameters of the sources and the vectors of parameters alike.

The setters of a parameter belong to the library of optimizers and are arbitrary functions; a
setter that throws is taken to leave the parameter as it was.
-/
namespace Verif.Ties

/-- The loops of the setters over the members, e.g. TiedParameter.cxx:70-76: a component that
is not there is a dangling pointer, a parameter that is not there an exception of `at`. -/
def setMembers (f : Par → Res Par) : List (Nat × Nat) → List Comp → Exit × List Comp
  | [], cs => (.ok, cs)
  | m :: ms, cs =>
    match cs[m.1]? with
    | none => (.ub, cs)
    | some c =>
      match c.pars[m.2]? with
      | none => (.throws, cs)
      | some p =>
        match f p with
        | .ok q => setMembers f ms (cs.set m.1 { c with pars := c.pars.set m.2 q })
        | .throws => (.throws, cs)
        | .ub => (.ub, cs)

/-- A setter of a tied parameter, TiedParameter.cxx:63-118: first its own value, then those of
the members. -/
def setTie (k : Nat) (f : Par → Res Par) (w : World) : Exit × World :=
  match w.ties[k]? with
  | none => (.ub, w)
  | some t =>
    match f t.par with
    | .ok q => ((setMembers f t.members w.comps).1,
        ⟨(setMembers f t.members w.comps).2, w.ties.set k { t with par := q }⟩)
    | .throws => (.throws, w)
    | .ub => (.ub, w)

/-- The second half of `addParam`, TiedParameter.cxx:39-42 and 53-61. -/
def join (k i j : Nat) (t : Tie) (w : World) : Exit × World :=
  if (i, j) ∈ t.members then (.ok, { w with ties := w.ties.set k t })
  else
    let ties := w.ties.set k { t with members := t.members ++ [(i, j)] }
    match w.comps[i]? with
    | none => (.ub, { w with ties := ties })
    | some c =>
      if j < c.pars.length then (.ok, ⟨w.comps.set i { c with pars := c.pars.set j t.par }, ties⟩)
      else (.throws, { w with ties := ties })

/-- `addParam`, TiedParameter.cxx:35-43. -/
def addParam (k i j : Nat) (w : World) : Exit × World :=
  match w.ties[k]? with
  | none => (.ub, w)
  | some t =>
    if t.members = [] then
      match w.comps[i]? with
      | none => (.ub, w)
      | some c =>
        match c.pars[j]? with
        | none => (.throws, w)
        | some p => join k i j { t with par := p } w
    else join k i j t w

/-- `removeParam`, TiedParameter.cxx:45-51. -/
def removeParam (k i j : Nat) (w : World) : Exit × World :=
  match w.ties[k]? with
  | none => (.ub, w)
  | some t => (.ok, { w with ties := w.ties.set k { t with members := t.members.erase (i, j) } })

/-- One operation. -/
def step (w : World) : Op → Exit × World
  | .set k f => setTie k f w
  | .add k i j => addParam k i j w
  | .remove k i j => removeParam k i j w

/-- The vector made of the parameters of the sources, `syncParams`, SourceModel.cxx:402-412. -/
def flat (l : List Src) : List Par := l.flatMap Src.pars

/-- `syncParams`, SourceModel.cxx:402-412. -/
def sync (c : Comp) : Comp := { c with pars := flat c.srcs }

/-- The new element in the map of sources, which is in the order of the names. -/
def insertSrc (s : Src) : List Src → List Src
  | [] => [s]
  | x :: l => if s.name < x.name then s :: x :: l else x :: insertSrc s l

/-- `addSource`, SourceModel.cxx:197-206. -/
def addSource (s : Src) (c : Comp) : Res Comp :=
  if c.srcs.any (fun x => x.name == s.name) then .throws else .ok (sync { c with srcs := insertSrc s c.srcs })

/-- `deleteSource`, SourceModel.cxx:208-218. -/
def deleteSource (n : Nat) (c : Comp) : Res Comp :=
  if c.srcs.any (fun x => x.name == n) then .ok (sync { c with srcs := c.srcs.filter (fun x => x.name != n) })
  else .throws

/-- `Function::setParam` of the library: the parameter with that name is replaced. -/
def setFn (p : Par) : List Par → Option (List Par)
  | [] => none
  | q :: qs => if q.name = p.name then some (p :: qs) else (setFn p qs).map (q :: ·)

/-- The inner loop of `setParams_`, SourceModel.cxx:394-397: `n` parameters from the vector are
given to a source; it is read without a check. -/
def give : Nat → List Par → List Par → Res (List Par × List Par)
  | 0, params, s => .ok (s, params)
  | _ + 1, [], _ => .ub
  | n + 1, p :: params, s =>
    match setFn p s with
    | none => .throws
    | some s' => give n params s'

/-- The number of free parameters. -/
def numFree (l : List Par) : Nat := (l.filter Par.free).length

/-- The loop of `setParams_` over the sources, SourceModel.cxx:389-398, for free parameters. -/
def giveAll : List Par → List Src → Res (List Src)
  | _, [] => .ok []
  | params, s :: ss => do
    let r ← give (numFree s.pars) params s.pars
    let rest ← giveAll r.2 ss
    .ok ({ s with pars := r.1 } :: rest)

/-- `setFreeParams`, SourceModel.cxx:376-400; the number of free parameters is that of the vector
of parameters. -/
def setFreeParams (params : List Par) (c : Comp) : Res Comp :=
  if params.length ≠ numFree c.pars then .throws
  else do
    let srcs ← giveAll params c.srcs
    .ok (sync { c with srcs := srcs })

/-- What `Composite2::syncParams` does with a component, Composite2.cxx:150-169. -/
def syncComp (c : Comp) : Res Comp := setFreeParams (c.pars.filter Par.free) c

end Verif.Ties
