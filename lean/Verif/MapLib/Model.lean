import Mathlib.Data.String.Basic
import Verif.StdMap
/-
Model of the library of maps and of the objects that use it: src/WcsMapLibrary.cxx and
src/MapBase.cxx.  Maps live at addresses; using an address that was freed is undefined
behaviour.  The library is reached through a singleton that is made when first needed and is
taken to exist.
-/
namespace Verif.MapLib

/-- A map in memory: the file and extension it was read from, whether it is a Healpix map, and
the factor by which it was rebinned. -/
structure Img where
  file : String
  ext : String
  hpx : Bool
  factor : ℕ
deriving DecidableEq

/-- The members of a `MapBase`, MapBase.h:104-114. -/
structure Obj where
  file : String
  ext : String
  expanded : String
  ptr : Option ℕ
deriving DecidableEq

/-- Memory, the library (`m_library`, `m_observers`) and the objects. -/
structure St where
  heap : ℕ → Option Img
  next : ℕ
  lib : List (String × ℕ)
  observer : ℕ → Bool
  objs : ℕ → Option Obj
  nobj : ℕ

/-- At the start there is nothing. -/
def St.empty : St := ⟨fun _ => none, 0, [], fun _ => false, fun _ => none, 0⟩

/-- The expansion of environment variables, and the files: whether a file with the extension
can be read, and whether it is a Healpix map (`AppHelpers::checkProjectionMethod`). -/
structure Env where
  expand : String → String
  disk : String → String → Option Bool

/-- How a call ends: with a map or without, with an exception, or undefined.  The state is the
one left behind. -/
inductive Out where
  | ok (s : St) (r : Option Img)
  | throws (s : St)
  | ub

/-- The state left behind. -/
def Out.state? : Out → Option St
  | .ok s _ => some s
  | .throws s => some s
  | .ub => none

/-- The key of a map, WcsMapLibrary.cxx:38, 69, 96. -/
def key (file ext : String) : String := file ++ "::" ++ ext

/-- A new map in memory. -/
def alloc (s : St) (img : Img) : St :=
  { s with heap := fun a => if a = s.next then some img else s.heap a, next := s.next + 1 }

/-- An object changed. -/
def setObj (s : St) (id : ℕ) (o : Obj) : St :=
  { s with objs := fun i => if i = id then some o else s.objs i }

/-- `wcsmap`, WcsMapLibrary.cxx:36-65: the address of the map, read if the library does not have
it; nothing if it cannot be read. -/
def wcsmap (E : Env) (s : St) (file ext : String) : Option (St × ℕ) :=
  match StdMap.find s.lib (key file ext) with
  | some a => some (s, a)
  | none =>
    match E.disk file ext with
    | none => none
    | some h =>
      some ({ alloc s ⟨file, ext, h, 1⟩ with lib := StdMap.put s.lib (key file ext) s.next }, s.next)

/-- `add_observer`, WcsMapLibrary.cxx:100-102. -/
def addObserver (s : St) (id : ℕ) : St :=
  { s with observer := fun i => if i = id then true else s.observer i }

/-- `readFitsFile`, MapBase.cxx:74-93; `some` if it succeeded.  The existence of the file is
tested before the library is asked. -/
def readFits (E : Env) (s : St) (id : ℕ) (o : Obj) : St × Option ℕ :=
  match E.disk (E.expand o.file) o.ext with
  | none => (setObj s id { o with expanded := E.expand o.file }, none)
  | some _ =>
    match wcsmap E s (E.expand o.file) o.ext with
    | none => (setObj s id { o with expanded := E.expand o.file }, none)
    | some (s', a) =>
      (addObserver (setObj s' id { o with expanded := E.expand o.file, ptr := some a }) id, some a)

/-- The map at an address. -/
def deref (s : St) (a : ℕ) : Out :=
  match s.heap a with
  | some img => .ok s (some img)
  | none => .ub

/-- `projmap`, MapBase.cxx:95-100 and MapBase.h:77-82. -/
def projmap (E : Env) (s : St) (id : ℕ) (o : Obj) : Out :=
  match o.ptr with
  | some a => deref s a
  | none =>
    match readFits E s id o with
    | (s', some a) => deref s' a
    | (s', none) => .throws s'

/-- `update`, MapBase.cxx:110-114 with `has_map`, WcsMapLibrary.cxx:94-98. -/
def update (lib : List (String × ℕ)) (o : Obj) : Obj :=
  match StdMap.find lib (key o.expanded o.ext) with
  | some _ => o
  | none => { o with ptr := none }

/-- `notify`, WcsMapLibrary.cxx:108-113. -/
def notify (s : St) : St :=
  { s with objs := fun i => (s.objs i).map (fun o => if s.observer i then update s.lib o else o) }

/-- The map is freed and no longer in the library, WcsMapLibrary.cxx:72-73. -/
def free (s : St) (k : String) (a : ℕ) : St :=
  { s with heap := fun b => if b = a then none else s.heap b, lib := StdMap.erase s.lib k }

/-- `delete_map` by name, WcsMapLibrary.cxx:67-76; nothing if a map is freed twice. -/
def deleteByName (s : St) (file ext : String) : Option St :=
  match StdMap.find s.lib (key file ext) with
  | none => some (notify s)
  | some a =>
    match s.heap a with
    | none => none
    | some _ => some (notify (free s (key file ext) a))

/-- `delete_map` by pointer, WcsMapLibrary.cxx:84-92: nobody is notified. -/
def deleteByPtr (s : St) (a : ℕ) : Option St :=
  match s.lib.find? (fun x => x.2 == a) with
  | none => some s
  | some x =>
    match s.heap a with
    | none => none
    | some _ => some (free s x.1 a)

/-- `m_projmap = p`. -/
def setPtr (s : St) (id : ℕ) (p : Option ℕ) : St :=
  { s with objs := fun i => if i = id then (s.objs i).map (fun o => { o with ptr := p }) else s.objs i }

/-- `deleteMap`, MapBase.cxx:102-108. -/
def deleteMap (s : St) (id : ℕ) (o : Obj) : Option St :=
  (deleteByName s o.expanded o.ext).map (fun s' => setPtr s' id none)

/-- The rebinned map: `WcsMap2::rebin` makes a new one, WcsMap2.cxx:959-1062;
`HealpixProjMap::rebin` changes the map itself, HealpixProjMap.cxx:562-579 (left alone for a
factor of 1; the smallest side is not modelled). -/
def rebinImg (s : St) (a : ℕ) (img : Img) (f : ℕ) : St × ℕ :=
  if img.hpx then
    ({ s with heap := fun b => if b = a then some { img with factor := img.factor * max f 1 } else s.heap b }, a)
  else (alloc s { img with factor := img.factor * f }, s.next)

/-- `MapBase::rebin`, MapBase.cxx:199-208. -/
def rebin (s : St) (id : ℕ) (o : Obj) (f : ℕ) : Option St :=
  match o.ptr with
  | none => some s
  | some a =>
    match s.heap a with
    | none => none
    | some img =>
      (deleteMap (rebinImg s a img f).1 id o).map (fun s' => setPtr s' id (some (rebinImg s a img f).2))

/-- What a program does with maps. -/
inductive Op where
  /-- `MapBase(file, ext)`, MapBase.cxx:35-41. -/
  | create (file ext : String)
  /-- The copy constructor, MapBase.cxx:47-52. -/
  | copy (id : ℕ)
  /-- Assignment, MapBase.cxx:54-62: the first becomes like the second. -/
  | assign (id other : ℕ)
  /-- The destructor, MapBase.cxx:43-45. -/
  | destroy (id : ℕ)
  /-- Any use of the map, through `projmap()`. -/
  | use (id : ℕ)
  /-- `readFitsFile(file, ext, loadMap)`, MapBase.cxx:64-72. -/
  | read (id : ℕ) (file ext : String) (load : Bool)
  | deleteMap (id : ℕ)
  | rebin (id : ℕ) (f : ℕ)
  /-- `WcsMapLibrary::delete_map(file, ext)`. -/
  | libDelete (file ext : String)
  /-- `WcsMapLibrary::delete_map(map)`. -/
  | libDeletePtr (a : ℕ)

/-- The result of an operation that frees. -/
def ofOption : Option St → Out
  | some s => .ok s none
  | none => .ub

/-- A new object. -/
def newObj (s : St) (o : Obj) : St :=
  { s with objs := fun i => if i = s.nobj then some o else s.objs i, nobj := s.nobj + 1 }

/-- One operation.  Using an object that does not exist is undefined. -/
def step (E : Env) (s : St) : Op → Out
  | .create file ext => .ok (newObj s ⟨file, ext, "", none⟩) none
  | .copy id =>
    match s.objs id with
    | some o => .ok (newObj s o) none
    | none => .ub
  | .assign id other =>
    match s.objs id, s.objs other with
    | some _, some o => .ok (setObj s id o) none
    | _, _ => .ub
  | .destroy id =>
    match s.objs id with
    | some _ =>
      .ok { s with objs := fun i => if i = id then none else s.objs i,
                   observer := fun i => if i = id then false else s.observer i } none
    | none => .ub
  | .use id =>
    match s.objs id with
    | some o => projmap E s id o
    | none => .ub
  | .read id file ext load =>
    match s.objs id with
    | some o =>
      if load then
        match readFits E s id { o with file := file, ext := ext } with
        | (s', some _) => .ok s' none
        | (s', none) => .throws s'
      else .ok (setObj s id { o with file := file, ext := ext }) none
    | none => .ub
  | .deleteMap id =>
    match s.objs id with
    | some o => ofOption (deleteMap s id o)
    | none => .ub
  | .rebin id f =>
    match s.objs id with
    | some o => ofOption (rebin s id o f)
    | none => .ub
  | .libDelete file ext => ofOption (deleteByName s file ext)
  | .libDeletePtr a => ofOption (deleteByPtr s a)

/-- A program: operations one after the other.  An exception is caught and the program goes
on; what is undefined stays undefined. -/
def run (E : Env) : St → List Op → Option St
  | s, [] => some s
  | s, op :: ops =>
    match (step E s op).state? with
    | some s' => run E s' ops
    | none => none

end Verif.MapLib
