import Verif.Edisp.Spec
import Mathlib.Analysis.SpecialFunctions.Log.Basic
/-
What sums over the model map are to be.
-/
namespace Verif.Explicit.Spec

open Edisp Vec
open scoped BigOperators

variable {K : Type} [Field K] [LinearOrder K]

/-- The source maps are for `nb` energy bins of `npix` pixels and have the weights `w`. -/
def Like (nb npix : Nat) (w : Option (List K)) (maps : List (SrcMap K)) : Prop :=
  ∀ s ∈ maps, s.Ok ∧ s.nebins = nb ∧ s.npix = npix ∧ s.weights = w

/-- `M` is the model map of the source, in all pixels. -/
def MapOf (s : SrcMap K) (M : List K) : Prop :=
  M.length = s.nebins * s.npix ∧ updateModelMap s false (List.replicate (s.nebins * s.npix) 0) = .ok M

/-- The weight of pixel `i`. -/
def wtAt (w : Option (List K)) (weighted : Bool) (i : Nat) : K :=
  if weighted then
    match w with
    | none => 0
    | some ws => val ws i
  else 1

/-- The pixel is not excluded by its weight. -/
def Kept (w : Option (List K)) (i : Nat) : Prop := ∀ ws, w = some ws → 0 < val ws i

/-- There are weights, if they are asked for. -/
def Given (w : Option (List K)) (weighted : Bool) : Prop := weighted = true → w ≠ none

open Classical in
/-- The counts of a map in the pixels that are kept. -/
noncomputable def keptSum (w : Option (List K)) (weighted : Bool) (M : List K) : K :=
  ∑ i ∈ (Finset.range M.length).filter (Kept w), wtAt w weighted i * val M i

/-- The counts of a map in all pixels. -/
def fullSum (w : Option (List K)) (weighted : Bool) (M : List K) : K :=
  ∑ i ∈ Finset.range M.length, wtAt w weighted i * val M i

/-- The logarithm of the Poisson likelihood without the factorials. -/
noncomputable def logLike (data model : List ℝ) : ℝ :=
  ∑ i ∈ Finset.range data.length, (val data i * Real.log (val model i) - val model i)

end Verif.Explicit.Spec
