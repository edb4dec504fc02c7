import Verif.Binned.Model
import Verif.Counts.Model
import Mathlib.Analysis.Calculus.Deriv.Basic
/-
What the binned log-likelihood should be, computed from scratch from the data, the
weights, the response and the sources in the model: no caches.
-/
namespace Verif.Binned

open Verif.Vec
open scoped BigOperators

/-- The constants have the sizes the constructors give them, the filled pixels are those
of `BinnedCountsCache`, the response has `|edisp_val|` extra bins. -/
structure Env.Ok (e : Env) : Prop where
  data : e.data.length = e.nebins * e.npix
  filled : Counts.identifyFilled e.nebins e.npix e.data = .ok (e.filled, e.first)
  weights : ∀ w, e.weights = some w → w.length = e.nebins * e.npix
  nmeas : e.rsp.nmeas = e.nebins
  bins : e.rsp.bins = e.ev.natAbs
  cols : e.cols.length = e.nebins
  col : ∀ c ∈ e.cols, c.length = e.nebins + 2 * e.rsp.bins

/-- Extra energy bins at each end of a source's map. -/
def Env.extra (e : Env) (useEdisp : Bool) : Nat := if useEdisp then e.ev.toNat else 0

/-- A source whose map and spectral weights have the right sizes. -/
structure Src.Ok (e : Env) (σ : Src) : Prop where
  tmpl : (σ.tmpl (e.extra σ.useEdisp)).length =
    (e.nebins + 1 + 2 * e.extra σ.useEdisp) * e.npix
  spec : ∀ v, (σ.spec (e.extra σ.useEdisp) v).length = e.nebins + 2 * e.extra σ.useEdisp
  dspec : ∀ v i, (σ.dspec (e.extra σ.useEdisp) v i).length = e.nebins + 2 * e.extra σ.useEdisp

/-- Counts in true-energy bin `t` (numbered from the first extra bin) and pixel `p` of a
map `T` with spectral weights `w`: the map at both edges of the bin times the weights. -/
noncomputable def trueCounts (e : Env) (T : List ℝ) (w : List (ℝ × ℝ)) (t p : Nat) : ℝ :=
  val T (t * e.npix + p) * (val w t).1 + val T ((t + 1) * e.npix + p) * (val w t).2

/-- Predicted counts in measured bin `k`, pixel `p` (`edisp_val ≥ 0`): the true counts if
dispersion is off for the source, else the true counts of the bins within `edisp_val` of
`k`, each with its entry of the response matrix. -/
noncomputable def dispersed (e : Env) (useEdisp : Bool) (T : List ℝ) (w : List (ℝ × ℝ))
    (k p : Nat) : ℝ :=
  if useEdisp = true ∧ 0 < e.ev then
    ∑ i ∈ Finset.range (2 * e.ev.toNat + 1),
      val (e.cols[k]?.getD []) (k + i) * trueCounts e T w (k + i) p
  else trueCounts e T w k p

/-- Predicted counts of a source with parameter values `v`. -/
noncomputable def counts (e : Env) (σ : Src) (v : List ℝ) (k p : Nat) : ℝ :=
  dispersed e σ.useEdisp (σ.tmpl (e.extra σ.useEdisp)) (σ.spec (e.extra σ.useEdisp) v) k p

/-- Predicted counts of the whole model. -/
noncomputable def total {ν : Type} (e : Env) (srcs : List (ν × Src)) (k p : Nat) : ℝ :=
  (srcs.map (fun x => counts e x.2 x.2.vals k p)).sum

/-- Likelihood weight of a pixel. -/
noncomputable def wt (e : Env) (k p : Nat) : ℝ :=
  match e.weights with
  | none => 1
  | some w => val w (k * e.npix + p)

/-- Log-likelihood of the model in the energy bins `[kmin, kmax)`: Poisson log-probability
of the (weighted) counts up to a constant, with the log-priors.  Pixels without counts,
or where the model is not positive, have no data term. -/
noncomputable def logLike {ν : Type} (e : Env) (srcs : List (ν × Src)) (kmin kmax : Nat) : ℝ :=
  ∑ k ∈ Finset.Ico kmin kmax, ∑ p ∈ Finset.range e.npix,
    ((if 0 < val e.data (k * e.npix + p) ∧ 0 < total e srcs k p
      then val e.data (k * e.npix + p) * Real.log (total e srcs k p) else 0) -
      wt e k p * total e srcs k p) +
  (srcs.map (fun x => (x.2.pars.map (fun p => p.logPrior p.value)).sum)).sum

/-- The model with one parameter of one source changed. -/
noncomputable def setParam {ν : Type} [DecidableEq ν] (srcs : List (ν × Src)) (n : ν) (i : Nat)
    (x : ℝ) : List (ν × Src) :=
  srcs.map (fun s => if s.1 = n then
    (s.1, { s.2 with pars := s.2.pars.modify i (fun p => { p with value := x }) }) else s)

/-- The free parameters of the model, in the order of the sources and then of the
parameters of each source: source name, position, current value. -/
noncomputable def freeParams {ν : Type} (srcs : List (ν × Src)) : List (ν × Nat × ℝ) :=
  (srcs.map (fun s => s.2.freeIdx.map (fun i => (s.1, i, val s.2.vals i)))).flatten

/-- What a user expects the object to hold after a history of calls: the sources with their
last parameters, the energy range; and two notes about the history. -/
structure Ideal (ν : Type) where
  srcs : List (ν × Src)
  kmin : Nat
  kmax : Nat
  /-- sources whose parameters were changed since the likelihood was last evaluated -/
  changed : List ν
  /-- the model was changed, since the last evaluation, only through calls that do not tell
  the likelihood object so -/
  stale : Bool

/-- A new object. -/
def Ideal.new {ν : Type} (e : Env) : Ideal ν := ⟨[], 0, e.nebins, [], false⟩

/-- The expected effect of a call. -/
def Ideal.step {ν : Type} [LinearOrder ν] (a : Ideal ν) : Op ν → Ideal ν
  | .addSource n σ =>
    if n ∈ StdMap.keys a.srcs then a
    else { a with srcs := StdMap.put a.srcs n σ
                  changed := a.changed.filter (fun x => decide (x ≠ n)), stale := true }
  | .deleteSource n =>
    if n ∈ StdMap.keys a.srcs then { a with srcs := StdMap.erase a.srcs n, stale := true } else a
  | .setPars n ps sync =>
    match StdMap.find a.srcs n with
    | none => a
    | some σ => { a with srcs := StdMap.put a.srcs n { σ with pars := ps }
                         changed := n :: a.changed, stale := !sync }
  | .setKlims x y => { a with kmin := x, kmax := y, stale := false }
  | .value => { a with changed := [], stale := false }
  | .getFreeDerivs => a

/-- The expected effect of a history. -/
def Ideal.run {ν : Type} [LinearOrder ν] (a : Ideal ν) : List (Op ν) → Ideal ν
  | [] => a
  | op :: ops => Ideal.run (a.step op) ops

/-- Calls the main theorem covers: a name always stands for the same spatial template; the
energy range is inside the data; a source is not deleted between a change of its
parameters and the next evaluation. -/
def Covered {ν : Type} (e : Env) (L : ν → Bool × (Nat → List ℝ)) (a : Ideal ν) : Op ν → Prop
  | .addSource n σ => σ.Ok e ∧ (σ.useEdisp, σ.tmpl) = L n
  | .deleteSource n => n ∉ a.changed
  | .setKlims _ y => y ≤ e.nebins
  | _ => True

/-- Every call of the history is covered. -/
def CoveredRun {ν : Type} [LinearOrder ν] (e : Env) (L : ν → Bool × (Nat → List ℝ)) (a : Ideal ν) :
    List (Op ν) → Prop
  | [] => True
  | op :: ops => Covered e L a op ∧ CoveredRun e L (a.step op) ops

/-- The derivative the spectrum of a source reports are the derivatives of its spectral
weights, and likewise for the priors. -/
structure Src.Differentiable (e : Env) (σ : Src) : Prop where
  spec : ∀ i ∈ σ.freeIdx, ∀ t,
    HasDerivAt (fun x => (val (σ.spec (e.extra σ.useEdisp) (σ.vals.set i x)) t).1)
      (val (σ.dspec (e.extra σ.useEdisp) σ.vals i) t).1 (val σ.vals i) ∧
    HasDerivAt (fun x => (val (σ.spec (e.extra σ.useEdisp) (σ.vals.set i x)) t).2)
      (val (σ.dspec (e.extra σ.useEdisp) σ.vals i) t).2 (val σ.vals i)
  prior : ∀ p ∈ σ.pars, p.free = true → HasDerivAt p.logPrior (p.dLogPrior p.value) p.value

end Verif.Binned
