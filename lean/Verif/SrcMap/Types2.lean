import Mathlib.Data.Real.Basic
/-
Events in the life of the spectrum of a source map.
-/
namespace Verif.SrcMap.Spectrum

/-- What can happen: the source gets other parameters, or a call. -/
inductive Op where
  | setPars (v : List ℝ)
  | setValues (latch : Bool)
  | setDerivs (names : List Nat)
  | specVals (force latch : Bool)
  | specDerivs (names : List Nat) (force : Bool)
  | load
  | reset

end Verif.SrcMap.Spectrum
