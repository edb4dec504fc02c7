import Verif.Vec
import Mathlib.Data.Real.Basic
/-
Model of `EventContainer::nobs`, src/EventContainer.cxx:238-265: the number of events per
energy bin, or the number attributed to a source.
-/
namespace Verif.Nobs

variable {E : Type}

/-- The bin, EventContainer.cxx:248-256, as an index: `upper_bound` is the first entry
above the energy (the bounds being sorted).  The subtraction wraps around, so that an
index below zero is out of range: `none`. -/
noncomputable def bin (eb : List ℝ) (front back energy : ℝ) : Option Nat :=
  if energy = back then (if eb.length < 2 then none else some (eb.length - 2))
  else if energy = front then some 0
  else match eb.findIdx (fun x => decide (energy < x)) with
    | 0 => none
    | k + 1 => some k

/-- One event, EventContainer.cxx:243-262; `contribution` is 1 without a source, and the
density of the source over the model sum with one.  `at` throws out of range. -/
noncomputable def step (energy : E → ℝ) (contribution : E → ℝ) (eb : List ℝ) (front back : ℝ)
    (my : List ℝ) (ev : E) : Res (List ℝ) :=
  if energy ev < front ∨ back < energy ev then .ok my
  else match bin eb front back (energy ev) with
    | none => .throws
    | some k => if k < my.length then .ok (my.set k (Vec.val my k + contribution ev)) else .throws

/-- `nobs`.  With no bounds the length of the result is a huge number and the construction
throws. -/
noncomputable def nobs (energy : E → ℝ) (contribution : E → ℝ) (eb : List ℝ) (evs : List E) : Res (List ℝ) :=
  match eb.head?, eb.getLast? with
  | some front, some back =>
    evs.foldlM (step energy contribution eb front back) (List.replicate (eb.length - 1) 0)
  | _, _ => .throws

end Verif.Nobs
