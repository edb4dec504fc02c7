import Mathlib.Data.Real.Basic
/-
What the model and the specification of the memory of snapshots share.
-/
namespace Verif.SnapOwn

/-- Memory: the parameters that exist, by address, and the next address. -/
structure Heap where
  cell : Nat → Option ℝ
  next : Nat

/-- Named parameters in memory. -/
abbrev Params := List (String × Nat)

/-- A source: its normalisation, its other spectral parameters, the name of its spatial functions and their
parameters. -/
structure Src where
  norm : Nat
  spec : Params
  spatName : String
  spat : Params

/-- A snapshot of a source. -/
structure Snap where
  owned : Bool
  norm : Nat
  spec : Params
  spatName : String
  spat : Params

end Verif.SnapOwn
