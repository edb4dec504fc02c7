import Verif.ScData.Model
import Mathlib.Algebra.Order.Field.Basic
/-
What the history says.
-/
namespace Verif.ScData.Spec
open Verif.ScData (Row)

variable {V : Type} [NormedAddCommGroup V] [NormedSpace ℝ V]

/-- The rows begin one after the other. -/
def Increasing (d : List (Row V)) : Prop :=
  d.Pairwise fun a b => a.start < b.start

/-- The point between two directions, moving at constant speed on the chord, drawn out to the
sphere. -/
noncomputable def between (t a b : ℝ) (u v : V) : V :=
  let w := ((b - t) / (b - a)) • u + ((t - a) / (b - a)) • v
  ‖w‖⁻¹ • w

/-- The row is of interest for the times selected. -/
def Overlaps (tstart tstop : ℝ) (r : Row V) : Prop :=
  r.start ≤ tstop ∧ tstart ≤ r.stop

/-- The rows that pass the filter of the files. -/
noncomputable def kept (tstart tstop : ℝ) (files : List (List (Row V))) : List (Row V) :=
  open Classical in files.flatten.filter fun r => decide (tstart - 60 ≤ r.start ∧ r.stop ≤ tstop + 60)

end Verif.ScData.Spec
