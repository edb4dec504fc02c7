import Verif.WtOwn.Types

/-!
# Weights maps and their users: what the client expects

A likelihood object has the weights given to it last, and all its sources are weighted by them.
Maps are their contents.
-/

namespace Verif.WtOwn.Spec

/-- A likelihood object: its weights, its sources, and the file of its weights map if the object
still holds that map. -/
structure Like (F W ν : Type) where
  w : Option W
  srcs : List (Tree ν)
  cur : Option F

/-- The variables of the client (the file, and whether no object was told since then to forget the
map), the likelihood objects, the number of source maps made, and the objects with a map for a
range of phases (`none` once destroyed). -/
structure St (F W ν : Type) where
  vars : List (F × Bool)
  likes : List (Like F W ν)
  next : ℕ
  helpers : List (Option (Option F))

variable {F W ν : Type} [DecidableEq F]

/-- At the start there is nothing. -/
def St.empty : St F W ν := ⟨[], [], 0, []⟩

/-- The file in a variable. -/
def file (s : St F W ν) : Option ℕ → Option (Option F)
  | none => some none
  | some v => (s.vars[v]?).map (fun x => some x.1)

/-- The file is forgotten. -/
def forget (vars : List (F × Bool)) : Option F → List (F × Bool)
  | none => vars
  | some f => vars.map (fun x => if x.1 = f then (x.1, false) else x)

/-- One call and what is seen; nothing if the client may not make it. -/
def step [DecidableEq ν] (disk : F → W) (s : St F W ν) :
    Op F ν → Option (St F W ν × Option (Option W))
  | .get f => some ({ s with vars := s.vars ++ [(f, true)] }, none)
  | .new v drop =>
    match file s v with
    | none => none
    | some f =>
      some ({ s with
        vars := if drop = true then forget s.vars f else s.vars
        likes := s.likes ++ [⟨f.map disk, [], if drop = true then none else f⟩] }, none)
  | .weights i v =>
    match s.likes[i]?, file s v with
    | some o, some f => some ({ s with likes := s.likes.set i ⟨f.map disk, o.srcs, f⟩ }, none)
    | _, _ => none
  | .add i n =>
    match s.likes[i]? with
    | none => none
    | some o =>
      (insert (.node n false s.next []) o.srcs).map (fun ts =>
        ({ s with next := s.next + 1, likes := s.likes.set i { o with srcs := ts } }, none))
  | .merge i c ns =>
    match s.likes[i]? with
    | none => none
    | some o =>
      (mergeT c ns s.next o.srcs).map (fun ts =>
        ({ s with next := s.next + 1, likes := s.likes.set i { o with srcs := ts } }, none))
  | .split i c =>
    match s.likes[i]? with
    | none => none
    | some o =>
      (splitT c o.srcs).map (fun ts =>
        ({ s with likes := s.likes.set i { o with srcs := ts } }, none))
  | .sums i n =>
    match s.likes[i]? with
    | none => none
    | some o => (look n o.srcs).map (fun _ => (s, some o.w))
  | .image i n =>
    match s.likes[i]? with
    | none => none
    | some o => (look n o.srcs).map (fun _ => (s, none))
  | .helper f => some ({ s with helpers := s.helpers ++ [some f] }, none)
  | .phase k =>
    match s.helpers[k]? with
    | some (some f) => some (s, some (f.map disk))
    | _ => none
  | .endHelper k =>
    match s.helpers[k]? with
    | some (some _) => some ({ s with helpers := s.helpers.set k none }, none)
    | _ => none

/-- A history of calls and what is seen. -/
def run [DecidableEq ν] (disk : F → W) (s : St F W ν) :
    List (Op F ν) → Option (St F W ν × List (Option (Option W)))
  | [] => some (s, [])
  | op :: ops =>
    match step disk s op with
    | none => none
    | some (s', x) => (run disk s' ops).map (fun r => (r.1, x :: r.2))

/-- The calls a careful client makes.  It makes no use of a variable the map of which was
forgotten; it lets an object forget its map only if no other object has it; it does not take the
weights from an object that has forgotten its map; it changes the weights of an object only while
this has no composite sources; and it does not destroy an object with a map for a range of
phases. -/
def Careful (s : St F W ν) : Op F ν → Prop
  | .new (some v) drop =>
    (∀ x, s.vars[v]? = some x → x.2 = true) ∧
    (drop = true → ∀ x, s.vars[v]? = some x →
      (∀ o ∈ s.likes, o.cur ≠ some x.1) ∧ ∀ h ∈ s.helpers, h ≠ some (some x.1))
  | .weights i v =>
    (∀ o, s.likes[i]? = some o → (∀ t ∈ o.srcs, t.parts = []) ∧
      (v = none → o.cur = none → o.w = none)) ∧
    (∀ (k : ℕ) (x : F × Bool), v = some k → s.vars[k]? = some x → x.2 = true)
  | .endHelper k => ∀ f, s.helpers[k]? ≠ some (some (some f))
  | _ => True

/-- A careful history. -/
def AllCareful [DecidableEq ν] (disk : F → W) (s : St F W ν) : List (Op F ν) → Prop
  | [] => True
  | op :: ops => Careful s op ∧ ∀ s' x, step disk s op = some (s', x) → AllCareful disk s' ops

end Verif.WtOwn.Spec
