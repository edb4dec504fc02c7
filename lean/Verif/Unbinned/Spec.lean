import Verif.Unbinned.Model
import Mathlib.Algebra.BigOperators.Group.List.Basic
/-
What a user expects of the unbinned log-likelihood: it is a function of the current
sources, of the events and of the energy selection.
-/
namespace Verif.Unbinned.Spec

open Verif.SrcModel Verif.Unbinned

variable {κ E G X : Type}

/-- Density of counts of one source at an event. -/
def srcDensity (w : World κ E G X) (s : L κ E G X) (x : κ × Src κ ℝ) (e : E) : ℝ :=
  w.dens x.2 (w.resp (s.objs x.1).geo e) e * w.eff e

/-- Density of counts of the model at an event. -/
def density (w : World κ E G X) (s : L κ E G X) (e : E) : ℝ :=
  (s.m.sources.map (fun x => srcDensity w s x e)).sum

/-- Contribution of an event: the logarithm of the density, with the conventions for a
density that is not positive. -/
noncomputable def logTerm (w : World κ E G X) (s : L κ E G X) (e : E) : ℝ :=
  if 0 < density w s e then Real.log (density w s e)
  else if s.m.sources.length = 1 then 0 else -(10 : ℝ) ^ 30

/-- The energy selection accepts the event. -/
def InRange (w : World κ E G X) (s : L κ E G X) (e : E) : Prop :=
  s.useEb = true → s.emin ≤ w.energy e ∧ w.energy e ≤ s.emax

/-- Sum over the selected events. -/
noncomputable def dataSum (w : World κ E G X) (s : L κ E G X) : ℝ :=
  open Classical in
  ((s.events.filter (fun ev => decide (InRange w s ev.e))).map (fun ev => logTerm w s ev.e)).sum

/-- Predicted counts of one source. -/
def counts (w : World κ E G X) (s : L κ E G X) (x : κ × Src κ ℝ) : ℝ := w.npred x.2 (s.objs x.1).expo

/-- Predicted counts of the model. -/
def modelSum (w : World κ E G X) (s : L κ E G X) : ℝ := (s.m.sources.map (counts w s)).sum

/-- Priors of all the parameters of the sources. -/
def priors (w : World κ E G X) (s : L κ E G X) : ℝ :=
  (s.m.sources.map (fun x => (x.2.pars.map w.logPrior).sum)).sum

/-- The log-likelihood. -/
noncomputable def logL (w : World κ E G X) (prior : Bool) (s : L κ E G X) : ℝ :=
  dataSum w s - modelSum w s + (if prior then priors w s else 0)

/-- The energy selection leaves nothing of the energies of the region of interest. -/
def Excluded (w : World κ E G X) (s : L κ E G X) : Prop :=
  s.useEb = true ∧ (w.roi.2 ≤ s.emin ∨ s.emax ≤ w.roi.1)

/-- The remembered predicted counts of the source `n` are not the current ones. -/
def Stale (w : World κ E G X) (s : L κ E G X) (n : κ) : Prop :=
  ∃ src, (n, src) ∈ s.m.sources ∧ (n, counts w s (n, src)) ∉ s.npreds

/-- A source without free parameters. -/
def Fixed (src : Src κ ℝ) : Prop := ∀ p ∈ src.pars, p.free = false

/-- Between the two states the predicted counts of the source `n` have changed, or it is
another source than before. -/
def Changed (w : World κ E G X) (s s' : L κ E G X) (n : κ) : Prop :=
  ∃ src, (n, src) ∈ s'.m.sources ∧ ∀ src0, (n, src0) ∈ s.m.sources →
    counts w s (n, src0) ≠ counts w s' (n, src)

/-- Which remembered counts a normally ended operation brings up to date: all operations
that end in a synchronisation those of the sources with a free parameter, the
synchronisation of one source and its addition those of this source, and a change of the
energy range all. -/
def Refreshes (op : Op κ E G X) (s' : L κ E G X) (n : κ) : Prop :=
  let free := ∃ src, (n, src) ∈ s'.m.sources ∧ ¬ Fixed src
  match op with
  | .add src _ => n = src.name ∨ free
  | .delete _ => free
  | .deleteAll => True
  | .par (.direct _ _) => False
  | .par _ => free
  | .syncSrc m => n = m
  | .setEb _ _ => True
  | .unsetEb => True
  | .read _ => False
  | .eval _ => False
  | .restore => free
  | .save => free

/-- Bookkeeping of the sources whose predicted counts changed and were not brought up to
date since, along a history. -/
def dirty [LinearOrder κ] (w : World κ E G X) : L κ E G X → (κ → Prop) → List (Op κ E G X) → (κ → Prop)
  | _, D, [] => D
  | s, D, op :: ops =>
    match step w s op with
    | .ok s' _ => dirty w s' (fun n => (D n ∨ Changed w s s' n) ∧ ¬ Refreshes op s' n) ops
    | .throws s' => dirty w s' (fun n => D n ∨ Changed w s s' n) ops
    | .ub => D

/-- Operations of a fit: sources come and go, the free parameters get values, the energy
range changes, and so on.  Not among them: a change of a parameter object, a change of all
values, and a change through the pointer of a source. -/
def Fitting : Op κ E G X → Prop
  | .add _ _ => True
  | .delete _ => True
  | .deleteAll => True
  | .par (.setValues true _) => True
  | .par .sync => True
  | .syncSrc _ => True
  | .setEb _ _ => True
  | .unsetEb => True
  | .read _ => True
  | .eval _ => True
  | _ => False

/-- The values of all parameters as listed by the model. -/
def point (s : L κ E G X) : List ℝ := s.m.param.map (fun p => p.value)

/-- The evaluations made along a history, each with the point at which it was made.  An
evaluation for an energy range that excludes all data does not count. -/
noncomputable def evals [LinearOrder κ] (w : World κ E G X) :
    L κ E G X → List (Op κ E G X) → List (List ℝ × ℝ)
  | _, [] => []
  | s, .eval p :: ops =>
    match value w p s with
    | .ok s' v =>
      open Classical in
      if Excluded w s then evals w s' ops else (point s, v) :: evals w s' ops
    | .throws s' => evals w s' ops
    | .ub => []
  | s, op :: ops =>
    match step w s op with
    | .ok s' _ => evals w s' ops
    | .throws s' => evals w s' ops
    | .ub => []

/-- Operations which do not clear the memory of the best fit. -/
def Remembers : Op κ E G X → Prop
  | .add _ _ => False
  | .delete _ => False
  | .deleteAll => False
  | .save => False
  | _ => True

/-- Setting of the free parameters, synchronisation and evaluation with the given choice
about priors. -/
def Moving (prior : Bool) : Op κ E G X → Prop
  | .par (.setValues true _) => True
  | .par .sync => True
  | .eval p => p = prior
  | _ => False

/-- A history without exceptions. -/
noncomputable def runOk [LinearOrder κ] (w : World κ E G X) (s : L κ E G X) :
    List (Op κ E G X) → Option (L κ E G X)
  | [] => some s
  | op :: ops =>
    match step w s op with
    | .ok s' _ => runOk w s' ops
    | _ => none

end Verif.Unbinned.Spec
