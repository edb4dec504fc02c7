import Verif.Basic
import Verif.StdMap
import Verif.Snap.Types
/-
Snapshots of a source model and their comparison with the current model:
src/Snapshot.cxx and Likelihood/Snapshot.h, and the choice of the update of a
scan cache, FitScanner.cxx:997-1044.

Names (`std::string`) are an arbitrary ordered type `κ`.
-/
namespace Verif.Snap

variable {κ : Type} [LinearOrder κ]

/-! ### The bits of `Snapshot_Status`, Snapshot.h:43-136 -/

/-- `Value_Changed`, Snapshot.h:58. -/
def valueChanged : Nat := 0x1
/-- `Status_Changed`, Snapshot.h:59. -/
def statusChanged : Nat := 0x2
/-- `Prior_Changed`, Snapshot.h:60. -/
def priorChanged : Nat := 0x4
/-- `Fixed_Changed`, Snapshot.h:61. -/
def fixedChanged : Nat := 0x8
/-- `Free_Changed`, Snapshot.h:62. -/
def freeChanged : Nat := 0x10
/-- `Par_Changed_Mask`, Snapshot.h:63. -/
def parMask : Nat := 0x7
/-- `Spec_Offset`, Snapshot.h:46. -/
def specOffset : Nat := 5
/-- `Spatial_Offset`, Snapshot.h:47. -/
def spatialOffset : Nat := 10
/-- `Spec_Model_Type_Changed`, Snapshot.h:87: `Model_Type_Changed << 15`. -/
def specType : Nat := 0x1 <<< 15
/-- `Free_Spec_Model_Type_Changed`, Snapshot.h:88. -/
def specTypeFree : Nat := 0x2 <<< 15
/-- `Fixed_Spec_Model_Type_Changed`, Snapshot.h:89. -/
def specTypeFixed : Nat := 0x4 <<< 15
/-- `Spatial_Model_Type_Changed`, Snapshot.h:91: `Model_Type_Changed << 18`. -/
def spatialType : Nat := 0x1 <<< 18
/-- `Free_Spatial_Model_Type_Changed`, Snapshot.h:92. -/
def spatialTypeFree : Nat := 0x2 <<< 18
/-- `Fixed_Spatial_Model_Type_Changed`, Snapshot.h:93. -/
def spatialTypeFixed : Nat := 0x4 <<< 18
/-- `Ancillary_Changed`, Snapshot.h:95. -/
def ancillary : Nat := 0x1 <<< 21
/-- `Fixed_Source_Added`, Snapshot.h:99. -/
def fixedAdded : Nat := 0x1 <<< 24
/-- `Free_Source_Added`, Snapshot.h:100. -/
def freeAdded : Nat := 0x1 <<< 25
/-- `Fixed_Source_Removed`, Snapshot.h:101. -/
def fixedRemoved : Nat := 0x1 <<< 26
/-- `Free_Source_Removed`, Snapshot.h:102. -/
def freeRemoved : Nat := 0x1 <<< 27
/-- `Source_Freed`, Snapshot.h:104. -/
def sourceFreed : Nat := 0x1 <<< 28
/-- `Source_Fixed`, Snapshot.h:105. -/
def sourceFixed : Nat := 0x1 <<< 29
/-- `Spec_Mask`, Snapshot.h:117. -/
def specMask : Nat := parMask <<< specOffset
/-- `Spatial_Mask`, Snapshot.h:118. -/
def spatialMask : Nat := parMask <<< spatialOffset
/-- `Model_Free_Mask`, Snapshot.h:113. -/
def modelFreeMask : Nat := (freeChanged <<< specOffset) ||| (freeChanged <<< spatialOffset)
/-- `Model_Fixed_Mask`, Snapshot.h:114. -/
def modelFixedMask : Nat := (fixedChanged <<< specOffset) ||| (fixedChanged <<< spatialOffset)
/-- `Model_Changed_Mask`, Snapshot.h:131-132. -/
def modelChangedMask : Nat :=
  modelFreeMask ||| modelFixedMask ||| specMask ||| spatialMask ||| ancillary
/-- `Model_Type_Mask`, Snapshot.h:125-126. -/
def modelTypeMask : Nat := specType ||| spatialType ||| ancillary

/-- `(m_val & mask) != 0`, the accessors of Snapshot.h:142-179. -/
def hit (s mask : Nat) : Bool := (s &&& mask) != 0

/-- `free_source_added`, Snapshot.h:171. -/
def freeSourceAdded (s : Nat) : Bool := hit s freeRemoved
/-- `free_source_removed`, Snapshot.h:172. -/
def freeSourceRemoved (s : Nat) : Bool := hit s freeAdded
/-- `fixed_source_added`, Snapshot.h:174. -/
def fixedSourceAdded (s : Nat) : Bool := hit s fixedRemoved
/-- `fixed_source_removed`, Snapshot.h:175. -/
def fixedSourceRemoved (s : Nat) : Bool := hit s fixedAdded

/-! ### Snapshots -/

/-- `Snapshot_Source`: the copy of a source kept by the snapshot, Snapshot.h:356-366. -/
structure SnapSrc (κ : Type) where
  /-- `m_fixed` -/
  fixed : Bool
  /-- `*m_norm_param` -/
  norm : Par κ
  /-- `m_spectral_model` -/
  specModel : κ
  /-- `m_spectral_params` -/
  specPars : List (κ × Par κ)
  /-- `m_spatial_model`: the keys that are concatenated -/
  spatModel : List κ
  /-- `m_spatial_params` -/
  spatPars : List (κ × Par κ)

/-- `theMap[*itr] = ptr` for all parameters of a function. -/
def putAll (m : List (κ × Par κ)) (ps : List (κ × Par κ)) : List (κ × Par κ) :=
  ps.foldl (fun m p => StdMap.put m p.1 p.2) m

/-- `latch_source`, Snapshot.cxx:272-285, into a new `Snapshot_Source`, with
`extract_norm` 87-92, `extract_spectral` 95-111 and `extract_spatial` 113-133.  The
parameters are cloned or read at once, so the record holds their contents.  The
ancillary data are always empty (135-138). -/
def latchSource (s : Src κ) : SnapSrc κ where
  fixed := !s.norm.free
  norm := s.norm
  specModel := s.spec.kind
  specPars := putAll [] s.spec.pars
  spatModel := s.funcs.map Prod.fst
  spatPars := s.funcs.foldl (fun m f => putAll m f.2.pars) []

/-! ### Comparison -/

/-- The test of Snapshot.cxx:56-59 and 71-77: two numbers differ by more than
`1e-5` of the sum of their sizes. -/
noncomputable def differ (v1 v2 : ℝ) : Bool := decide (|v1 - v2| > (|v1| + |v2|) * 1e-5)

/-- Loop of `compare_priors`, Snapshot.cxx:54-61. -/
noncomputable def priorLoop : List (κ × ℝ) → List (κ × ℝ) → Bool
  | (n1, v1) :: l1, (n2, v2) :: l2 =>
    if n1 ≠ n2 then true else if differ v1 v2 then true else priorLoop l1 l2
  | _, _ => false

/-- `compare_priors`, Snapshot.cxx:39-64. -/
noncomputable def comparePriors (p1 p2 : Option (Prior κ)) : Bool :=
  match p1, p2 with
  | none, none => false
  | some a, some b => if a.pars.length ≠ b.pars.length then true else priorLoop a.pars b.pars
  | _, _ => true

/-- `parameter_status`, Snapshot.cxx:66-85. -/
noncomputable def parStatus (p1 p2 : Par κ) : Nat :=
  (if differ p1.tv p2.tv then valueChanged else 0) |||
  (if p1.free != p2.free then statusChanged else 0) |||
  (if comparePriors p1.prior p2.prior then priorChanged else 0)

/-- `par_status |= (fixed ? Fixed_Changed : Free_Changed)` if anything changed,
Snapshot.cxx:144-147, 179-182 and 212-215. -/
noncomputable def markedStatus (fixed : Bool) (p1 p2 : Par κ) : Nat :=
  let s := parStatus p1 p2
  if s ≠ 0 then s ||| (if fixed then fixedChanged else freeChanged) else s

/-- `compare_norm`, Snapshot.cxx:141-153. -/
noncomputable def compareNorm (p1 p2 : Par κ) (fixed : Bool) : Nat :=
  let s := markedStatus fixed p1 p2
  if hit s statusChanged then s ||| (if fixed then sourceFreed else sourceFixed) else s

/-- Loop of `compare_spectral`, Snapshot.cxx:168-184, and `compare_spatial`,
201-217: the bits collected so far, and
whether all names agreed. -/
noncomputable def parLoop (fixed : Bool) : List (κ × Par κ) → List (κ × Par κ) → Nat → Nat × Bool
  | (n1, p1) :: l1, (n2, p2) :: l2, s =>
    if n1 ≠ n2 then (s, false) else parLoop fixed l1 l2 (s ||| markedStatus fixed p1 p2)
  | _, _, s => (s, true)

/-- `compare_spectral`, Snapshot.cxx:155-186, and `compare_spatial`, 188-219: the two
are the same code with other bits.  `M` is the type of the model's name. -/
noncomputable def comparePars {M : Type} [DecidableEq M] (offset ty tyFree tyFixed : Nat)
    (name1 name2 : M) (m1 m2 : List (κ × Par κ)) (fixed : Bool) : Nat :=
  let tyBits := ty ||| (if fixed then tyFixed else tyFree)
  if name1 ≠ name2 ∨ m1.length ≠ m2.length then tyBits
  else match parLoop fixed m1 m2 0 with
    | (s, true) => s <<< offset
    | (s, false) => s ||| tyBits

/-- `Snapshot_Source::compare`, Snapshot.cxx:299-309.  The ancillary data of both
sides are empty, so `compare_ancillary` (221-239) gives 0. -/
noncomputable def compare (a : SnapSrc κ) (src : Src κ) : Nat :=
  let b := latchSource src
  compareNorm a.norm b.norm a.fixed |||
  comparePars specOffset specType specTypeFree specTypeFixed a.specModel b.specModel
    a.specPars b.specPars a.fixed |||
  comparePars spatialOffset spatialType spatialTypeFree spatialTypeFixed a.spatModel b.spatModel
    a.spatPars b.spatPars a.fixed

/-- `latch_model`, Snapshot.cxx:329-338. -/
def latchModel (model : List (κ × Src κ)) : List (κ × SnapSrc κ) :=
  model.map fun s => (s.1, latchSource s.2)

/-- `Snapshot::compare_source`, Snapshot.cxx:357-371.  `src` is `none` for a null
pointer; the iterator past the end is then dereferenced if the name is unknown. -/
noncomputable def compareSource (snap : List (κ × SnapSrc κ)) (name : κ) (src : Option (Src κ)) :
    Res Nat :=
  match src with
  | none => match StdMap.find snap name with
    | some a => .ok (if a.fixed then freeRemoved else fixedRemoved)
    | none => .ub
  | some s => match StdMap.find snap name with
    | none => .ok (if s.norm.free then freeAdded else fixedAdded)
    | some a => .ok (compare a s)

/-- `Snapshot::compare_model`, Snapshot.cxx:373-383: the status and the list of
changed sources. -/
noncomputable def compareModel (snap : List (κ × SnapSrc κ)) (model : List (κ × Src κ)) :
    Res (Nat × List κ) :=
  model.foldlM (fun acc s => do
    let c ← compareSource snap s.1 (some s.2)
    .ok (acc.1 ||| c, if c ≠ 0 then acc.2 ++ [s.1] else acc.2)) (0, [])

/-- The outputs of `compare_latched`. -/
structure Diff (κ : Type) where
  /-- `latched_status` -/
  latched : Nat
  /-- `changed_latched` -/
  changedLatched : List κ
  /-- `unlatched_status` -/
  unlatched : Nat
  /-- `changed_unlatched` -/
  changedUnlatched : List κ
  /-- `new_free` -/
  newFree : List κ
  /-- `new_fixed` -/
  newFixed : List κ

/-- Body of the loop over the sources of the snapshot, Snapshot.cxx:403-422: a
source's status goes to the latched or the unlatched part. -/
noncomputable def latchedBody (snap : List (κ × SnapSrc κ)) (model : List (κ × Src κ))
    (latched : List κ) (d : Diff κ) (name : κ) : Res (Diff κ) := do
  let c ← compareSource snap name (StdMap.find model name)
  if name ∈ latched then
    .ok { d with latched := d.latched ||| c,
                 changedLatched := if c ≠ 0 then d.changedLatched ++ [name] else d.changedLatched }
  else
    .ok { d with unlatched := d.unlatched ||| c,
                 changedUnlatched := if c ≠ 0 then d.changedUnlatched ++ [name]
                   else d.changedUnlatched }

/-- `Snapshot::compare_latched`, Snapshot.cxx:385-433.  The set `model_set` holds the
sources of the model that the snapshot does not name. -/
noncomputable def compareLatched (snap : List (κ × SnapSrc κ)) (model : List (κ × Src κ))
    (latched : List κ) : Res (Diff κ) := do
  let d ← (snap.map Prod.fst).foldlM (latchedBody snap model latched) ⟨0, [], 0, [], [], []⟩
  let rest := model.filter fun s => !(snap.map Prod.fst).contains s.1
  .ok { d with newFree := (rest.filter fun s => s.2.norm.free).map Prod.fst,
               newFixed := (rest.filter fun s => !s.2.norm.free).map Prod.fst }

/-! ### The update a scan cache needs -/

/-- `Remake_Prior`, FitScanner.h:789. -/
def remakePrior : Nat := 0x1
/-- `Refactor`, FitScanner.h:790. -/
def refactor : Nat := 0x2
/-- `Update_Free`, FitScanner.h:791. -/
def updateFree : Nat := 0x4
/-- `Update_Fixed`, FitScanner.h:792. -/
def updateFixed : Nat := 0x8
/-- `Rebuild`, FitScanner.h:793. -/
def rebuild : Nat := 0x10

/-- `FitScanCache::find_action_needed`, FitScanner.cxx:1008-1043, after
`compare_latched`. -/
def actionOf (d : Diff κ) : Nat :=
  if d.newFree ≠ [] ∨ hit d.unlatched sourceFreed then rebuild
  else
    (if d.newFixed ≠ [] ∨ d.unlatched ≠ 0 then updateFixed ||| refactor else 0) |||
    (if hit d.latched modelChangedMask then updateFree ||| refactor else 0) |||
    (if hit d.latched statusChanged ∨ hit d.latched valueChanged then refactor else 0) |||
    (if hit d.latched priorChanged then remakePrior else 0)

/-- `FitScanCache::find_action_needed`, FitScanner.cxx:997-1044: the action and the
names of the changed latched sources. -/
noncomputable def findAction (snap : List (κ × SnapSrc κ)) (model : List (κ × Src κ))
    (templates : List κ) : Res (Nat × List κ) := do
  let d ← compareLatched snap model templates
  .ok (actionOf d, d.changedLatched)

end Verif.Snap
