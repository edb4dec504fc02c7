import Verif.Snap.Model
import Verif.FitUtils.Model
/-
The templates of a scan cache and their update, FitScanner.cxx:968-995, 1045-1150 and
1577-1610, 1777-1828, with `extractModels` and `extractFixedModel`, FitUtils.cxx:1357-1525.

The wrapped likelihood is a single `BinnedLikelihood`; bins are not reduced and there
are no weights.  `cnt s` is the vector of counts that `computeModelMap` fills for the
source `s` (its own properties are those of `Verif.MapOut`); it has one element per bin
of the data.  Priors are not modelled here.
-/
namespace Verif.Snap
open Verif.FitUtils

variable {κ : Type} [LinearOrder κ]

/-- The part of `FitScanCache` that holds templates. -/
structure Cache (κ : Type) where
  /-- `m_snapshot` -/
  snap : List (κ × SnapSrc κ)
  /-- `m_templateSourceNames` -/
  names : List κ
  /-- `m_allModels` -/
  models : List (List ℝ)
  /-- `m_allFixed` -/
  fixed : List ℝ
  /-- `m_targetModel` -/
  target : List ℝ
  /-- `m_refValues` -/
  refs : List ℝ
  /-- `m_currentModels` -/
  curModels : List (List ℝ)
  /-- `m_currentFixed` -/
  curFixed : List ℝ
  /-- `m_currentPars` -/
  curPars : List ℝ
  /-- `m_currentRefValues` -/
  curRefs : List ℝ
  /-- `m_currentTestSourceIndex >= 0` -/
  curTest : Bool

/-- The outputs of `extractModels`. -/
structure Extract (κ : Type) where
  /-- `freeSrcNames` -/
  names : List κ
  /-- `templates` -/
  models : List (List ℝ)
  /-- `fixed` -/
  fixed : List ℝ
  /-- `test_source_model` -/
  target : List ℝ
  /-- `refPars` -/
  refs : List ℝ

/-- Body of the loop over the sources in `extractModels`, FitUtils.cxx:1399-1457.
Division by a zero reference value is not distinguished. -/
noncomputable def extractBody (cnt : Src κ → List ℝ) (test : κ) (unit : Bool) (e : Extract κ)
    (p : κ × Src κ) : Res (Extract κ) :=
  let ref := p.2.norm.value
  if p.1 = test then do
    let t ← vectorAdd e.target (cnt p.2) e.target 1 (1 / ref)
    .ok { e with target := t }
  else if p.2.norm.free then
    if unit ∧ ref > 0 then
      .ok { e with names := e.names ++ [p.1], models := e.models ++ [(cnt p.2).map (· * (1 / ref))],
                   refs := e.refs ++ [1] }
    else
      .ok { e with names := e.names ++ [p.1], models := e.models ++ [cnt p.2],
                   refs := e.refs ++ [ref] }
  else do
    let f ← vectorAdd e.fixed (cnt p.2) e.fixed 1 1
    .ok { e with fixed := f }

/-- `extractModels`, FitUtils.cxx:1357-1463, on what the vectors held before: the
names and templates are appended to, the fixed part and the test source's model are
resized but not cleared, and only the reference values start afresh (1377). -/
noncomputable def extractModels (cnt : Src κ → List ℝ) (nbins : Nat) (test : κ) (unit : Bool)
    (model : List (κ × Src κ)) (e : Extract κ) : Res (Extract κ) :=
  model.foldlM (extractBody cnt test unit)
    { e with fixed := vresize e.fixed nbins 0, target := vresize e.target nbins 0, refs := [] }

/-- `extractFixedModel`, FitUtils.cxx:1466-1530, with a list of latched sources. -/
noncomputable def extractFixed (cnt : Src κ → List ℝ) (nbins : Nat) (test : κ)
    (model : List (κ × Src κ)) (latched : List κ) : Res (List ℝ) :=
  model.foldlM (fun f p =>
    if p.1 = test then .ok f
    else if p.1 ∈ latched then .ok f
    else if p.2.norm.free then .ok f
    else vectorAdd f (cnt p.2) f 1 1) (List.replicate nbins 0)

/-- The reference values of the free templates, FitScanner.cxx:1102-1109; `i` is the
index of the first element. -/
def curRefs (refs : List ℝ) : Nat → List Bool → Res (List ℝ)
  | _, [] => .ok []
  | i, f :: fs =>
    if f then do
      let r ← vget refs i
      let rs ← curRefs refs (i + 1) fs
      .ok (r :: rs)
    else curRefs refs (i + 1) fs

/-- `refactorModel`, FitScanner.cxx:1064-1117, without reduced bins and priors. -/
noncomputable def refactorModel (c : Cache κ) (free : List Bool) (scales : List ℝ) (test : Bool) :
    Res (Cache κ) := do
  let (tout, fixed, pars) ← refactorModels c.models c.fixed scales free
    (if test then some c.target else none)
  let rs ← curRefs c.refs 0 free
  .ok { c with curModels := tout, curFixed := fixed, curPars := pars, curRefs := rs, curTest := test }

/-- `setCache`, FitScanner.cxx:1045-1062: everything free at scale one, without the
test source. -/
noncomputable def setCache (c : Cache κ) : Res (Cache κ) :=
  refactorModel c (List.replicate c.models.length true) (List.replicate c.models.length 1) false

/-- `get_status_and_scales`, FitScanner.cxx:1815-1828, from template `i` on. -/
noncomputable def statusAndScales (model : List (κ × Src κ)) (refs : List ℝ) :
    Nat → List κ → Res (List Bool × List ℝ)
  | _, [] => .ok ([], [])
  | i, n :: ns => match StdMap.find model n with
    | none => .throws
    | some s => do
      let r ← vget refs i
      let (fs, ss) ← statusAndScales model refs (i + 1) ns
      .ok (s.norm.free :: fs, s.norm.value / r :: ss)

/-- `refactor_from_model`, FitScanner.cxx:1808-1813. -/
noncomputable def refactorFromModel (model : List (κ × Src κ)) (c : Cache κ) : Res (Cache κ) := do
  let (free, scales) ← statusAndScales model c.refs 0 c.names
  refactorModel c free scales c.curTest

/-- `build_from_model`, FitScanner.cxx:1777-1794, with `cleanup`, 1907-1926, which
leaves the names, templates and vectors alone. -/
noncomputable def buildFromModel (cnt : Src κ → List ℝ) (nbins : Nat) (test : κ) (unit : Bool)
    (model : List (κ × Src κ)) (c : Cache κ) : Res (Cache κ) := do
  let e ← extractModels cnt nbins test unit model ⟨c.names, c.models, c.fixed, c.target, c.refs⟩
  setCache { c with snap := latchModel model, names := e.names, models := e.models,
                    fixed := e.fixed, target := e.target, refs := e.refs }

/-- The constructor, FitScanner.cxx:919-960: vectors of zeros, then
`build_from_model` and `refactor_from_model`. -/
noncomputable def construct (cnt : Src κ → List ℝ) (nbins : Nat) (test : κ) (unit : Bool)
    (model : List (κ × Src κ)) : Res (Cache κ) := do
  let z := List.replicate nbins (0 : ℝ)
  let c ← buildFromModel cnt nbins test unit model ⟨[], [], [], z, z, [], [], z, [], [], false⟩
  refactorFromModel model c

/-- `getTemplateIndex`, FitScanner.cxx:1579-1586: `none` for -1. -/
def templateIndex (names : List κ) (n : κ) : Option Nat := names.findIdx? (· = n)

/-- `update_template_for_source`, FitScanner.cxx:1597-1614: the new counts of the
source, rescaled to the reference value if its value is positive. -/
noncomputable def updateTemplate (cnt : Src κ → List ℝ) (model : List (κ × Src κ)) (c : Cache κ)
    (n : κ) : Res (Cache κ) :=
  match templateIndex c.names n with
  | none => .throws
  | some i => match StdMap.find model n with
    | none => .throws
    | some s => do
      let r ← vget c.refs i
      let m := if s.norm.value > 0 then (cnt s).map (· * (r / s.norm.value)) else cnt s
      let ms ← vset c.models i m
      .ok { c with models := ms }

/-- `update_fixed_from_model`, FitScanner.cxx:1796-1799. -/
noncomputable def updateFixedPart (cnt : Src κ → List ℝ) (nbins : Nat) (test : κ)
    (model : List (κ × Src κ)) (c : Cache κ) : Res (Cache κ) := do
  let f ← extractFixed cnt nbins test model c.names
  .ok { c with fixed := f }

/-- A step that is only taken if its bit is set. -/
def onlyIf {α : Type} (b : Bool) (f : α → Res α) (a : α) : Res α := if b then f a else .ok a

/-- `update_with_action`, FitScanner.cxx:968-995. -/
noncomputable def updateWithAction (cnt : Src κ → List ℝ) (nbins : Nat) (test : κ) (unit : Bool)
    (model : List (κ × Src κ)) (c : Cache κ) (action : Nat) (changed : List κ) : Res (Cache κ) :=
  if hit action rebuild then buildFromModel cnt nbins test unit model c
  else if action = 0 then .ok c
  else do
    let c ← onlyIf (hit action updateFixed) (updateFixedPart cnt nbins test model) c
    let c ← onlyIf (hit action updateFree) (fun c => changed.foldlM (updateTemplate cnt model) c) c
    let c ← onlyIf (hit action (updateFixed ||| updateFree)) setCache c
    let c ← onlyIf (hit action (refactor ||| remakePrior)) (refactorFromModel model) c
    .ok { c with snap := latchModel model }

/-- `FitScanCache::update`, FitScanner.h:816-823. -/
noncomputable def update (cnt : Src κ → List ℝ) (nbins : Nat) (test : κ) (unit : Bool)
    (model : List (κ × Src κ)) (c : Cache κ) : Res (Cache κ) := do
  let (action, changed) ← findAction c.snap model c.names
  updateWithAction cnt nbins test unit model c action changed

/-- `addTestSourceToCurrent`, FitScanner.cxx:1217-1244.  The initial parameters are
taken to be the current ones, as they are after refactoring. -/
def addTest (c : Cache κ) (v : ℝ) : Cache κ :=
  if c.curTest then c
  else { c with curModels := c.curModels ++ [c.target], curPars := c.curPars ++ [v], curTest := true }

/-- `removeTestSourceFromCurrent`, FitScanner.cxx:1246-1268. -/
def removeTest (c : Cache κ) : Cache κ :=
  if c.curTest then
    { c with curModels := c.curModels.dropLast, curPars := c.curPars.take (c.curModels.length - 1),
             curTest := false }
  else c

/-- One operation on the cache. -/
noncomputable def step (cnt : Src κ → List ℝ) (nbins : Nat) (test : κ) (unit : Bool) (c : Cache κ) :
    Op κ → Res (Cache κ)
  | .update m => update cnt nbins test unit m c
  | .addTest v => .ok (addTest c v)
  | .removeTest => .ok (removeTest c)

end Verif.Snap
