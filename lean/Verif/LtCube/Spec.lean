import Verif.LtCube.Types
import Verif.Livetime.Spec
/-
What a user expects of a livetime cube: the good part of the livetime of every row of all the
spacecraft files.
-/
namespace Verif.LtCube.Spec
open Verif.Livetime

variable {δ : Type}

/-- The rows of the files in order; files that are not there have none. -/
def allRows (w : World δ) (files : List Nat) : List (Row δ) :=
  files.flatMap fun f => (w.sc f).getD []

/-- The good livetime, when a direction counts with the weight `f`. -/
noncomputable def livetime (gtis : List (ℝ × ℝ)) (rows : List (Row δ)) (f : δ → ℝ) : ℝ :=
  (rows.map fun r => f r.dir * (r.livetime * Livetime.Spec.fraction r.start r.stop [] gtis)).sum

/-- The same with each row weighted by its fraction of livetime. -/
noncomputable def weighted (gtis : List (ℝ × ℝ)) (rows : List (Row δ)) (f : δ → ℝ) : ℝ :=
  (rows.map fun r => f r.dir * (r.livetime * Livetime.Spec.fraction r.start r.stop [] gtis *
    (r.livetime / (r.stop - r.start)))).sum

/-- The livetime in a cube. -/
noncomputable def inCube (c : Cube δ) (f : δ → ℝ) : ℝ := (c.fills.map fun x => f x.dir * x.time).sum

/-- The weighted livetime in a cube. -/
noncomputable def inWeighted (c : Cube δ) (f : δ → ℝ) : ℝ := (c.fills.map fun x => f x.dir * x.weighted).sum

/-- A table in the order of time, without overlaps. -/
def InOrder (rows : List (Row δ)) : Prop :=
  (∀ r ∈ rows, r.start ≤ r.stop) ∧ rows.Pairwise fun a b => a.stop ≤ b.start

end Verif.LtCube.Spec
