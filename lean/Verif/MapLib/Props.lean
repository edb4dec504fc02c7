import Verif.MapLib.Lemmas
/-
C79: sharing of the maps that are read from files.
-/
set_option linter.unusedSimpArgs false
set_option linter.unusedVariables false
namespace Verif.MapLib
open Spec

/-- C79: whatever a careful program does, nothing undefined happens, and an object that is used
shows the map of the file it was last given, at full resolution; it throws exactly when the
file cannot be read.  Missing: programs that copy objects that hold a map, rebin, or change the
file of an object that holds a map without reading it; see below what happens to them. -/
theorem C79_use_partial (E : Env) (s : St) (N : Names) (h : Reach E s N) :
    (∀ op, Careful E s op → step E s op ≠ .ub) ∧
    (∀ id f e, N.of id = some (f, e) → Shows E f e (step E s (.use id))) := by
  have hI := reach_inv h
  refine ⟨fun op hc hu => ?_, fun id f e hn => ?_⟩
  · obtain ⟨s', h1, _⟩ := step_inv hI hc
    rw [hu] at h1
    cases h1
  · rw [← reach_names h] at hn
    cases ho : s.objs id with
    | none => simp [namesOf, ho] at hn
    | some o =>
      simp only [namesOf, ho, Option.map_some, Option.some.injEq, Prod.mk.injEq] at hn
      rw [step, ho, ← hn.1, ← hn.2]
      exact (use_inv hI ho).1

/-- C79: in a careful program a file is in memory at most once, objects that show the same file
share the map, and every map in memory can be released through the library. -/
theorem C79_shared_partial (E : Env) (s : St) (N : Names) (h : Reach E s N) :
    (∀ a b i j, s.heap a = some i → s.heap b = some j → i.file = j.file → i.ext = j.ext → a = b) ∧
    (∀ id id' o o' a a', s.objs id = some o → s.objs id' = some o' → o.ptr = some a →
      o'.ptr = some a' → (a = a' ↔ E.expand o.file = E.expand o'.file ∧ o.ext = o'.ext)) ∧
    (∀ a i, s.heap a = some i → ∃ s', step E s (.libDelete i.file i.ext) = .ok s' none ∧
      s'.heap a = none) := by
  have hI := reach_inv h
  have hfind : ∀ a i, s.heap a = some i → StdMap.find s.lib (key i.file i.ext) = some a := by
    intro a i hi
    obtain ⟨k, hk⟩ := hI.full a (by rw [hi]; simp)
    obtain ⟨img, h1, h2, _⟩ := hI.libOK k a hk
    rw [hi] at h1
    cases h1
    rw [← h2]; exact hk
  refine ⟨?_, ?_, ?_⟩
  · intro a b i j hi hj hf he
    have h1 := hfind a i hi
    have h2 := hfind b j hj
    rw [hf, he, h2] at h1
    exact (Option.some.inj h1).symm
  · intro id id' o o' a a' ho ho' ha ha'
    obtain ⟨he, h0⟩ := hI.objs id o ho
    obtain ⟨he', h0'⟩ := hI.objs id' o' ho'
    obtain ⟨-, h1, h2⟩ := h0 a ha
    obtain ⟨-, h3, h4⟩ := h0' a' ha'
    constructor
    · rintro rfl
      obtain ⟨i, hi, hk, -⟩ := hI.libOK _ _ h2
      obtain ⟨j, hj, hk', -⟩ := hI.libOK _ _ h4
      rw [hi] at hj
      cases hj
      rw [← hk'] at hk
      obtain ⟨e1, e2⟩ := key_inj he he' hk
      exact ⟨by rw [← h1, ← h3, e1], e2⟩
    · rintro ⟨hf, hx⟩
      rw [h1, hf, hx, ← h3, h4] at h2
      exact (Option.some.inj h2).symm
  · intro a i hi
    refine ⟨notify (free s (key i.file i.ext) a), ?_, ?_⟩
    · rw [step, deleteByName, hfind a i hi]
      simp only [hi, ofOption]
    · simp [notify, free]

/-- One file. -/
def exEnv : Env := ⟨id, fun f e => if f = "gal.fits" then some false else none⟩

/-- Two objects with the same file are made and used and then the first one's map is deleted;
then the second is used again. -/
example : ∃ (s : St) (N : Names), Reach exEnv s N ∧ N.of 0 = some ("gal.fits", "") ∧
    (∃ o, s.objs 0 = some o ∧ o.ptr = none) ∧ (∃ o, s.objs 1 = some o ∧ o.ptr = some 1) := by
  have ok : ExtOK "" := by simp [ExtOK]
  have h0 := Reach.start (E := exEnv)
  have h1 := Reach.step (op := .create "gal.fits" "") h0 ok rfl
  have h2 := Reach.step (op := .create "gal.fits" "") h1 ok rfl
  have h3 := Reach.step (op := .use 0) h2 ⟨_, rfl⟩ rfl
  have h4 := Reach.step (op := .use 1) h3 ⟨_, rfl⟩ rfl
  have h5 := Reach.step (op := .deleteMap 0) h4 ⟨_, rfl⟩ rfl
  have h6 := Reach.step (op := .use 1) h5 ⟨_, rfl⟩ rfl
  exact ⟨_, _, h6, rfl, ⟨_, rfl, rfl⟩, ⟨_, rfl, rfl⟩⟩

/-- C79 fails for copies: the copy of an object that holds a map keeps the address when the
original is told to delete its map, and using the copy is undefined. -/
theorem C79_copy_violates (E : Env) (f e : String) (b : Bool)
    (hd : E.disk (E.expand f) e = some b) :
    ∃ s, run E St.empty [.create f e, .use 0, .copy 0, .deleteMap 0] = some s ∧
      step E s (.use 1) = .ub := by
  refine ⟨_, by simp [run, step, newObj, St.empty, projmap, readFits, hd, wcsmap, StdMap.find,
    StdMap.put, alloc, setObj, addObserver, deref, Out.state?, deleteMap, deleteByName, ofOption,
    free, notify, setPtr, update, StdMap.erase]; rfl, ?_⟩
  simp [step, projmap, deref]

/-- C79 fails for Healpix maps that are rebinned: the map is changed in place, then freed, and
the object keeps its address. -/
theorem C79_healpix_violates (E : Env) (f e : String) (n : ℕ)
    (hd : E.disk (E.expand f) e = some true) :
    ∃ s, run E St.empty [.create f e, .use 0, .rebin 0 n] = some s ∧
      step E s (.use 0) = .ub := by
  refine ⟨_, by simp [run, step, newObj, St.empty, projmap, readFits, hd, wcsmap, StdMap.find,
    StdMap.put, alloc, setObj, addObserver, deref, Out.state?, deleteMap, deleteByName, ofOption,
    free, notify, setPtr, update, StdMap.erase, rebin, rebinImg, deleteByPtr]; rfl, ?_⟩
  simp [step, projmap, deref]

/-- C79 fails for maps that are rebinned: right after it the object has the rebinned map, but
as soon as any map is deleted, even one that was never in memory, it silently has the
original resolution again, and the rebinned map stays in memory out of reach of the library. -/
theorem C79_rebin_violates (E : Env) (f e g x : String) (n : ℕ)
    (hd : E.disk (E.expand f) e = some false) :
    ∃ s s' s'', run E St.empty [.create f e, .use 0, .rebin 0 n] = some s ∧
      step E s (.use 0) = .ok s (some ⟨E.expand f, e, false, n⟩) ∧
      step E s (.libDelete g x) = .ok s' none ∧
      step E s' (.use 0) = .ok s'' (some ⟨E.expand f, e, false, 1⟩) ∧
      s''.heap 1 = some ⟨E.expand f, e, false, n⟩ ∧ ∀ k, StdMap.find s''.lib k ≠ some 1 := by
  obtain ⟨s, hs, h1, h2, h3, h4, h5⟩ : ∃ s, run E St.empty [.create f e, .use 0, .rebin 0 n] = some s ∧
      s.heap 1 = some ⟨E.expand f, e, false, n⟩ ∧ s.lib = [] ∧ s.observer 0 = true ∧
      s.objs 0 = some ⟨f, e, E.expand f, some 1⟩ ∧ s.next = 2 := by
    refine ⟨_, by simp [run, step, newObj, St.empty, projmap, readFits, hd, wcsmap, StdMap.find,
      StdMap.put, alloc, setObj, addObserver, deref, Out.state?, deleteMap, deleteByName, ofOption,
      free, notify, setPtr, update, StdMap.erase, rebin, rebinImg, deleteByPtr]; rfl, ?_⟩
    simp
  have h6 : (notify s).objs 0 = some ⟨f, e, E.expand f, none⟩ := by
    simp [notify, h4, h3, update, h2, StdMap.find]
  have hrun : ∃ s'', step E (notify s) (.use 0) = .ok s'' (some ⟨E.expand f, e, false, 1⟩) ∧
      s''.heap 1 = some ⟨E.expand f, e, false, n⟩ ∧ s''.lib = [(key (E.expand f) e, 2)] := by
    refine ⟨_, by rw [step, h6]; simp [projmap, readFits, hd, wcsmap, notify, h2, StdMap.find, alloc, addObserver, setObj, deref, h5]; rfl, ?_, ?_⟩
    · simp [h1]
    · simp [StdMap.put]
  obtain ⟨s'', h7, h8, h9⟩ := hrun
  refine ⟨s, notify s, s'', hs, ?_, ?_, h7, h8, ?_⟩
  · rw [step, h4]; simp [projmap, deref, h1]
  · rw [step, deleteByName, h2]; simp [StdMap.find, ofOption]
  · intro k hk
    rw [h9] at hk
    simp only [StdMap.find] at hk
    split at hk
    · simp at hk
    · cases hk

/-- C79 fails for an object that is given another file while it holds a map: without reading
the file, it goes on showing the old one. -/
theorem C79_reload_violates (E : Env) (f e g x : String) (b : Bool)
    (hd : E.disk (E.expand f) e = some b) :
    ∃ s, run E St.empty [.create f e, .use 0, .read 0 g x false] = some s ∧
      step E s (.use 0) = .ok s (some ⟨E.expand f, e, b, 1⟩) := by
  refine ⟨_, by simp [run, step, newObj, St.empty, projmap, readFits, hd, wcsmap, StdMap.find,
    StdMap.put, alloc, setObj, addObserver, deref, Out.state?, deleteMap, deleteByName, ofOption,
    free, notify, setPtr, update, StdMap.erase, rebin, rebinImg, deleteByPtr]; rfl, ?_⟩
  simp [step, projmap, deref]

/-- C79 fails when that file cannot be read: the exception leaves the object with the old map
under the new name. -/
theorem C79_missing_violates (E : Env) (f e g x : String) (b : Bool)
    (hd : E.disk (E.expand f) e = some b) (hm : E.disk (E.expand g) x = none) :
    ∃ s, run E St.empty [.create f e, .use 0, .read 0 g x true] = some s ∧
      step E s (.use 0) = .ok s (some ⟨E.expand f, e, b, 1⟩) := by
  refine ⟨_, by simp [run, step, newObj, St.empty, projmap, readFits, hd, wcsmap, StdMap.find,
    StdMap.put, alloc, setObj, addObserver, deref, Out.state?, deleteMap, deleteByName, ofOption,
    free, notify, setPtr, update, StdMap.erase, rebin, rebinImg, deleteByPtr, hm]; rfl, ?_⟩
  simp [step, projmap, deref]

/-- C79 fails for maps deleted by their address: the objects are not told. -/
theorem C79_pointer_violates (E : Env) (f e : String) (b : Bool)
    (hd : E.disk (E.expand f) e = some b) :
    ∃ s, run E St.empty [.create f e, .use 0, .libDeletePtr 0] = some s ∧
      step E s (.use 0) = .ub := by
  refine ⟨_, by simp [run, step, newObj, St.empty, projmap, readFits, hd, wcsmap, StdMap.find,
    StdMap.put, alloc, setObj, addObserver, deref, Out.state?, deleteMap, deleteByName, ofOption,
    free, notify, setPtr, update, StdMap.erase, rebin, rebinImg, deleteByPtr]; rfl, ?_⟩
  simp [step, projmap, deref]

/-- C79 fails for extensions with colons: two files that can both be read are taken for the
same. -/
theorem C79_colon_violates (E : Env) (b c : Bool) (hx : E.expand = id)
    (hd : E.disk "a::b" "c" = some b) (he : E.disk "a" "b::c" = some c) :
    ∃ s, run E St.empty [.create "a::b" "c", .create "a" "b::c", .use 0] = some s ∧
      ∃ s', step E s (.use 1) = .ok s' (some ⟨"a::b", "c", b, 1⟩) := by
  have hk : key "a" "b::c" = key "a::b" "c" := by decide
  refine ⟨_, by simp [run, step, newObj, St.empty, projmap, readFits, hd, wcsmap, StdMap.find,
    StdMap.put, alloc, setObj, addObserver, deref, Out.state?, deleteMap, deleteByName, ofOption,
    free, notify, setPtr, update, StdMap.erase, rebin, rebinImg, deleteByPtr, hx]; rfl, ?_⟩
  exact ⟨_, by
    simp [step, projmap, deref, readFits, hx, he, wcsmap, hk, StdMap.find, addObserver, setObj]
    rfl⟩

/-- Such files exist. -/
example : (⟨id, fun _ _ => some true⟩ : Env).disk (id "gal.fits") "" = some true := rfl

end Verif.MapLib
