import Verif.MapLib.Model
/-
Which programs use the maps with care, and what they may expect.
-/
namespace Verif.MapLib.Spec

/-- The name of an extension, without colons. -/
def ExtOK (e : String) : Prop := ':' ∉ e.toList

/-- The object exists. -/
def Alive (s : St) (id : ℕ) : Prop := ∃ o, s.objs id = some o

/-- The object exists and holds no map at the moment. -/
def Unloaded (s : St) (id : ℕ) : Prop := ∃ o, s.objs id = some o ∧ o.ptr = none

/-- Operations of a program that takes care: it uses objects that exist, does not copy objects
that hold a map, gives an object that holds a map another file only if that file can be read
and is read, does not rebin and does not delete maps by their address. -/
def Careful (E : Env) (s : St) : Op → Prop
  | .create _ ext => ExtOK ext
  | .copy id => Unloaded s id
  | .assign id other => Alive s id ∧ Unloaded s other
  | .destroy id => Alive s id
  | .use id => Alive s id
  | .read id file ext load =>
    ExtOK ext ∧ (Unloaded s id ∨ (Alive s id ∧ load = true ∧ E.disk (E.expand file) ext ≠ none))
  | .deleteMap id => Alive s id
  | .rebin _ _ => False
  | .libDelete _ _ => True
  | .libDeletePtr _ => False

/-- What the program said about its objects: how many it made, and the file and extension that
each of those that still exist was given last. -/
structure Names where
  count : ℕ
  of : ℕ → Option (String × String)

/-- Nothing was said. -/
def Names.none : Names := ⟨0, fun _ => Option.none⟩

/-- An operation. -/
def Names.step (N : Names) : Op → Names
  | .create file ext => ⟨N.count + 1, Function.update N.of N.count (some (file, ext))⟩
  | .copy id => ⟨N.count + 1, Function.update N.of N.count (N.of id)⟩
  | .assign id other => ⟨N.count, Function.update N.of id (N.of other)⟩
  | .destroy id => ⟨N.count, Function.update N.of id Option.none⟩
  | .read id file ext _ => ⟨N.count, Function.update N.of id (some (file, ext))⟩
  | .use _ | .deleteMap _ | .rebin _ _ | .libDelete _ _ | .libDeletePtr _ => N

/-- The states that careful programs reach. -/
inductive Reach (E : Env) : St → Names → Prop
  | start : Reach E St.empty Names.none
  | step {s s' : St} {N : Names} {op : Op} (h : Reach E s N) (hc : Careful E s op)
      (hs : (step E s op).state? = some s') : Reach E s' (N.step op)

/-- The file is shown: its map at full resolution, or an exception if it cannot be read. -/
def Shows (E : Env) (file ext : String) : Out → Prop
  | .ok _ (some img) =>
    img.file = E.expand file ∧ img.ext = ext ∧ img.factor = 1 ∧
      E.disk (E.expand file) ext = some img.hpx
  | .ok _ none => False
  | .throws _ => E.disk (E.expand file) ext = none
  | .ub => False

end Verif.MapLib.Spec
