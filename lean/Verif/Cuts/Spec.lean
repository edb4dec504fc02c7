import Verif.Cuts.Types
import Mathlib.Algebra.BigOperators.Group.List.Basic
/-
What a user expects of the checks of input files, stated without reference to the code.
-/
namespace Verif.Cuts.Spec
open Verif.Cuts

/-- An event of energy `e` passes the selections. -/
def Passes (cuts : List Cut) (e : ℝ) : Prop :=
  ∀ lo hi, Cut.range "ENERGY".toList lo hi ∈ cuts → lo ≤ e ∧ e ≤ hi

/-- There is a selection in energy. -/
def HasEnergy (cuts : List Cut) : Prop := ∃ lo hi, Cut.range "ENERGY".toList lo hi ∈ cuts

/-- A selection neither in energy nor of the version of the response functions. -/
def Other (c : Cut) : Prop :=
  (∀ lo hi, c ≠ .range "ENERGY".toList lo hi) ∧ ∀ v, c ≠ .version "IRF_VERSION".toList v

/-- The other selections, in their order. -/
noncomputable def others (cuts : List Cut) : List Cut :=
  open Classical in cuts.filter (fun c => decide (Other c))

/-- The mask of event types: that of the last selection of event types, or the default. -/
def mask : List Cut → Nat → Nat
  | [], d => d
  | .bits c m :: cs, d => mask cs (if c = "EVENT_TYPE".toList then m else d)
  | _ :: cs, d => mask cs d

/-- The lists of good time intervals among the selections. -/
def gtis (cuts : List Cut) : List (List (ℝ × ℝ)) :=
  cuts.flatMap (fun c => match c with | .gti iv => [iv] | _ => [])

/-- The good time intervals agree. -/
def TimesAgree (env : Env) (a b : List Cut) : Prop :=
  List.Forall₂ (fun x y => env.sameGti x y = true) (gtis a) (gtis b)

/-- Sum over corresponding intervals of the distances of their starts (`fst`) or stops. -/
def apart (f : ℝ × ℝ → ℝ) (a b : List (ℝ × ℝ)) : ℝ :=
  ((a.zip b).map (fun p => |f p.1 - f p.2|)).sum

/-- The same over all lists that do not agree. -/
def allApart (env : Env) (f : ℝ × ℝ → ℝ) (a b : List Cut) : ℝ :=
  (((gtis a).zip (gtis b)).map (fun p =>
    if env.sameGti p.1 p.2 then 0 else apart f p.1 p.2)).sum

/-- Pixel `(i, j)` of a map of `nx` times `ny` pixels. -/
def IsPixel (nx ny i j : Nat) : Prop := 1 ≤ i ∧ i ≤ nx ∧ 1 ≤ j ∧ j ≤ ny

/-- The exposure map has a value there. -/
def Covered (l : Look) : Prop := ∃ x, l = .value x

/-- No gaps in any row: between two covered pixels of a row all are covered. -/
def NoGaps (nx ny : Nat) (look : Nat → Nat → Look) : Prop :=
  ∀ i k m j, IsPixel nx ny i j → IsPixel nx ny m j → i ≤ k → k ≤ m →
    Covered (look i j) → Covered (look m j) → Covered (look k j)

/-- The exposure map fits the events: the other selections agree, and every energy of an event
lies in the range of the map. -/
def MapFits (env : Env) (ev em : List Cut) : Prop :=
  env.same (others ev) (others em) = true ∧ ∀ e, Passes ev e → Passes em e

end Verif.Cuts.Spec
