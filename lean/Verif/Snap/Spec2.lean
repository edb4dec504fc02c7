import Verif.Snap.Spec
/-
What a scan cache should hold: the counts of the sources of a model.
-/
namespace Verif.Snap.Spec

variable {κ : Type}

/-- The counts of a source with normalisation one: they depend on the spectrum, the
other functions and the scale of the normalisation. -/
abbrev Shape (κ : Type) := Fn κ → List (κ × Fn κ) → ℝ → List ℝ

/-- The counts of a source: proportional to the value of its normalisation. -/
def counts (shape : Shape κ) (s : Src κ) : List ℝ :=
  (shape s.spec s.funcs s.norm.scale).map fun x => s.norm.value * x

/-- The content of bin `b`. -/
def bin (v : List ℝ) (b : Nat) : ℝ := v.getD b 0

/-- The sources other than the test source, with free normalisation. -/
def freeSources [DecidableEq κ] (test : κ) (m : List (κ × Src κ)) : List (κ × Src κ) :=
  m.filter fun p => p.1 ≠ test ∧ p.2.norm.free = true

/-- The sources other than the test source, with fixed normalisation. -/
def fixedSources [DecidableEq κ] (test : κ) (m : List (κ × Src κ)) : List (κ × Src κ) :=
  m.filter fun p => p.1 ≠ test ∧ p.2.norm.free = false

/-- The counts of a list of sources in bin `b`. -/
noncomputable def sumCounts (shape : Shape κ) (l : List (κ × Src κ)) (b : Nat) : ℝ :=
  (l.map fun p => bin (counts shape p.2) b).sum

/-- The counts of all sources but the test source in bin `b`. -/
noncomputable def total [DecidableEq κ] (shape : Shape κ) (test : κ) (m : List (κ × Src κ)) (b : Nat) : ℝ :=
  sumCounts shape (m.filter fun p => p.1 ≠ test) b

/-- A fixed part plus scaled templates, in bin `b`. -/
noncomputable def scanned (fixed pars : List ℝ) (models : List (List ℝ)) (b : Nat) : ℝ :=
  bin fixed b + (List.zipWith (fun p M => p * bin M b) pars models).sum

/-- Fixed part, templates, parameters and reference values are those of the model: the
fixed part is the sum of the fixed sources; there is one template for each free
source, in order, its counts at the reference value of the normalisation; the
parameter is the value relative to the reference value. -/
structure InLine [DecidableEq κ] (shape : Shape κ) (nbins : Nat) (test : κ) (m : List (κ × Src κ))
    (fixed pars refs : List ℝ) (models : List (List ℝ)) : Prop where
  fixedPart : fixed.length = nbins ∧ ∀ b, bin fixed b = sumCounts shape (fixedSources test m) b
  refValues : refs.length = (freeSources test m).length ∧ ∀ r ∈ refs, r ≠ 0
  templates : models = List.zipWith
    (fun p r => (shape p.2.spec p.2.funcs p.2.norm.scale).map fun x => r * x) (freeSources test m) refs
  parameters : pars = List.zipWith (fun p r => p.2.norm.value / r) (freeSources test m) refs

/-- A change of the model that an update can follow: `T` are the sources with templates.
No free source is added and no source without template is freed; sources with
templates are not removed and keep their types and the scale of the normalisation; the
normalisations of those that change are positive; all differences are larger than the
tolerance. -/
structure Gentle [LT κ] [BEq κ] (T : List κ) (old new : List (κ × Src κ)) : Prop where
  model : IsModel new
  added : ∀ n t, Added old new n t → t.norm.free = false
  freed : ∀ n s t, n ∉ T → Both old new n s t → s.norm.free = false → t.norm.free = false
  kept : ∀ n ∈ T, ¬ Removed old new n
  types : ∀ n s t, n ∈ T → Both old new n s t →
    SameSpecType s t ∧ SameSpatType s t ∧ s.norm.scale = t.norm.scale
  positive : ∀ n t, n ∈ T → Changed old new n → (n, t) ∈ new → 0 < t.norm.value
  sharp : ∀ n s t, Both old new n s t → Same s t → s = t
  shape : ∀ n s t, n ∈ T → Both old new n s t → SamePars s.spec.pars t.spec.pars →
    SamePars (spatial s) (spatial t) → s.spec = t.spec ∧ s.funcs = t.funcs

/-- A part of the cache has to be computed again: a source was added, a source without
template changed or was removed, or the shape of a source with template changed. -/
def Recomputed [BEq κ] (names : List κ) (old new : List (κ × Src κ)) : Prop :=
  (∃ n t, Added old new n t) ∨ (∃ n, n ∉ names ∧ Changed old new n) ∨
    ∃ n s t, n ∈ names ∧ Both old new n s t ∧
      ¬ (SamePars s.spec.pars t.spec.pars ∧ SamePars (spatial s) (spatial t))

/-- A change that only moves the normalisations of sources with templates, apart from
changes below the tolerance; one of them moves beyond the tolerance. -/
structure Lazy [LT κ] [BEq κ] (T : List κ) (old new : List (κ × Src κ)) : Prop where
  model : IsModel new
  keys : old.map Prod.fst = new.map Prod.fst
  others : ∀ n s t, n ∉ T → Both old new n s t → Same s t
  templates : ∀ n s t, n ∈ T → Both old new n s t → SameSpecType s t ∧ SameSpatType s t ∧
    SamePars s.spec.pars t.spec.pars ∧ SamePars (spatial s) (spatial t)
  moved : ∃ n s t, n ∈ T ∧ Both old new n s t ∧
    ¬ Close (s.norm.value * s.norm.scale) (t.norm.value * t.norm.scale)

/-- Each model follows from the one before by such a change. -/
def Lazies [LT κ] [BEq κ] (T : List κ) : List (κ × Src κ) → List (List (κ × Src κ)) → Prop
  | _, [] => True
  | m, m' :: ms => Lazy T m m' ∧ Lazies T m' ms

/-- At every update the model has changed, since the last one, in a way an update can
follow. -/
def Gentles [LT κ] [BEq κ] (T : List κ) : List (κ × Src κ) → List (Op κ) → Prop
  | _, [] => True
  | m, .update m' :: ops => Gentle T m m' ∧ Gentles T m' ops
  | m, _ :: ops => Gentles T m ops

/-- The model at the last update. -/
def lastModel : List (κ × Src κ) → List (Op κ) → List (κ × Src κ)
  | m, [] => m
  | _, .update m' :: ops => lastModel m' ops
  | m, _ :: ops => lastModel m ops

end Verif.Snap.Spec
