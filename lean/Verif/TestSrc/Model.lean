import Verif.TestSrc.Types
import Verif.TsScan.Model
import Verif.Newton.Model
import Mathlib.Tactic.Common

/-!
# The test source of a scan: the code

The sources are objects in a store, in which the destroyed ones are marked.  The model is that of
the master component.  `none` stands for undefined behaviour.  All test sources are taken to be
movable, and the shifts to pixel centres, which only change what a source consists of, are left out.
-/

namespace Verif.TestSrc

variable {N D : Type} [DecidableEq N]

/-- The state: the store, the sources of the model (`m_sources`, SourceModel.h), and
`m_testSource`, `m_testSourceOwned`, `m_testSourceName` (FitScanner.h:1611-1617). -/
structure St (N D : Type) where
  heap : List (Option D)
  model : N → Option ℕ
  test : Option ℕ
  owned : Bool
  name : N

/-- A new scanner: no test source, with the name "TestSource"; FitScanner.cxx:1965-1967. -/
def init (n : N) : St N D := ⟨[], fun _ => none, none, false, n⟩

/-- `delete`, on a null pointer or an object. -/
def free (h : List (Option D)) : Option ℕ → Option (List (Option D))
  | none => some h
  | some p =>
    match h[p]? with
    | some (some _) => some (h.set p none)
    | _ => none

/-- Looking at an object. -/
def deref (h : List (Option D)) (p : ℕ) : Option D := h[p]?.bind id

/-- `removeTestSourceFromModel`, FitScanner.cxx:2921-2924, with `removeSource`, 549-558: the source
of the name is taken out of the model and deleted, if there is one. -/
def dropFromModel (s : St N D) (n : N) : Option (St N D) :=
  match s.model n with
  | none => some s
  | some p => (free s.heap (some p)).map (fun h =>
      { s with heap := h, model := Function.update s.model n none })

/-- `if ( m_testSourceOwned ) delete m_testSource;` FitScanner.cxx:2737-2739, 2822-2824,
2880-2882. -/
def freeOwned (s : St N D) : Option (St N D) :=
  if s.owned then (free s.heap s.test).map (fun h => { s with heap := h }) else some s

/-- A new object becomes the test source. -/
def newTest (s : St N D) (n : N) (d : D) (o : Bool) : St N D :=
  ⟨s.heap ++ [some d], s.model, some s.heap.length, o, n⟩

/-- One call. -/
def step (s : St N D) : Op N D → Option (St N D × Obs D)
  -- `SourceModel::addSource`, SourceModel.cxx:197-206, with a clone
  | .add n d =>
    match s.model n with
    | some _ => some (s, .failed)
    | none => some (⟨s.heap ++ [some d], Function.update s.model n (some s.heap.length), s.test,
        s.owned, s.name⟩, .nothing)
  -- `SourceModel::deleteSource`, SourceModel.cxx:208-218, and `delete`
  | .remove n =>
    match s.model n with
    | none => some (s, .failed)
    | some _ => (dropFromModel s n).map (fun s' => (s', .nothing))
  -- `SourceModel::source`, SourceModel.cxx:237-243
  | .ask n =>
    match s.model n with
    | none => some (s, .failed)
    | some p => (deref s.heap p).map (fun d => (s, .saw d))
  -- `setPowerlawPointTestSource`, FitScanner.cxx:2728-2777
  | .powerlaw d => (dropFromModel s s.name).bind (fun s1 => (freeOwned s1).map (fun s2 =>
      (newTest s2 s2.name d true, .nothing)))
  -- `setPointTestSource`, FitScanner.cxx:2780-2806
  | .point d => some (newTest s s.name d true, .nothing)
  -- `setTestSourceByName`, FitScanner.cxx:2810-2865; the exception at 2834 comes after the
  -- changes of 2815-2829
  | .byName n =>
    (if s.name = n then some s else
      (dropFromModel s s.name).bind (fun s1 => (freeOwned s1).map (fun s2 =>
        { s2 with owned := false, name := n }))).bind (fun s3 =>
      match s3.model n with
      | none => some (s3, .failed)
      | some p => some ({ s3 with test := some p }, .nothing))
  -- `setTestSource`, FitScanner.cxx:2869-2898
  | .give n d o =>
    (if s.name = n then some s else
      (dropFromModel s s.name).bind (fun s1 => freeOwned s1)).map (fun s2 =>
      (newTest s2 n d o, .nothing))
  -- `buildTestModelCache`, FitScanner.cxx:3093-3118
  | .use =>
    match s.test with
    | none => some (s, .failed)
    | some p => (deref s.heap p).map (fun d => (s, .saw d))

/-- A history of calls. -/
def run (s : St N D) : List (Op N D) → Option (St N D × List (Obs D))
  | [] => some (s, [])
  | op :: ops => (step s op).bind (fun r => (run r.1 ops).map (fun r' => (r'.1, r.2 :: r'.2)))

/-- The objects that are allocated when the scanner is gone: its destructor leaves the test source
alone, FitScanner.cxx:2096-2104. -/
def allocated (s : St N D) : ℕ := s.heap.countP (·.isSome)

/-! ### The scans of a map -/

/-- `run_tscube`, FitScanner.cxx:2153-2596: the fit without test source (2236), with at most
`maxIter` steps, and the scan.  `tolType` is used by the standard fitter only. -/
noncomputable def tscube (w : TsScan.Wrapper) (g : TsScan.Grid) (o : TsScan.Opts)
    (f : TsScan.Fits) (e : Newton.Env) (init : List ℝ) (tol lambda : ℝ) (maxIter tolType : ℕ) :
    Res TsScan.Run := do
  let r ← Newton.fitNorms e tol maxIter lambda init
  TsScan.run w g o ⟨(r.status, r.logLike), f.broad, f.sed⟩

/-- `run_tsmap`, FitScanner.cxx:2122-2131: the arguments are in the order of FitScanner.h:1302-1310,
tolerance type before number of iterations, and are handed on in that order. -/
noncomputable def tsmap (w : TsScan.Wrapper) (g : TsScan.Grid) (remake : Bool)
    (f : TsScan.Fits) (e : Newton.Env) (init : List ℝ) (tol lambda : ℝ) (tolType maxIter : ℕ) :
    Res TsScan.Run :=
  tscube w g ⟨true, false, 0, remake⟩ f e init tol lambda tolType maxIter

/-- `run_SED`, FitScanner.cxx:2136-2146. -/
noncomputable def sed (w : TsScan.Wrapper) (g : TsScan.Grid) (nNorm : ℕ) (remake : Bool)
    (f : TsScan.Fits) (e : Newton.Env) (init : List ℝ) (tol lambda : ℝ) (maxIter tolType : ℕ) :
    Res TsScan.Run :=
  tscube w g ⟨false, true, nNorm, remake⟩ f e init tol lambda maxIter tolType

end Verif.TestSrc
