import Verif.Vec
import Mathlib.Analysis.SpecialFunctions.Sqrt
/-
Specification of the effective background and of the weights.
-/
namespace Verif.Weights.Spec
open scoped BigOperators
open Verif.Vec (val)

/-- The logarithmic centre of an energy bin. -/
noncomputable def centre (edges : List ℝ) (k : Nat) : ℝ := Real.sqrt (val edges k * val edges (k + 1))

/-- The counts under the peak of the point-spread function of layer `k` in pixel `p`: `conv` is
the convolved intensity. -/
noncomputable def underPeak (peak : ℝ → ℝ) (edges : List ℝ) (conv : Nat → Nat → ℝ) (k p : Nat) : ℝ :=
  conv k p * (val edges (k + 1) - val edges k) / peak (centre edges k)

/-- The effective background of layer `K`: the counts under the peaks of all layers from this one
to the one whose energy is `efact` times higher. -/
noncomputable def background (peak : ℝ → ℝ) (efact : ℝ) (edges : List ℝ) (conv : Nat → Nat → ℝ) (n K p : Nat) : ℝ := by
  classical exact
  ∑ k ∈ (Finset.range n).filter (fun k => K ≤ k ∧ centre edges k ≤ efact * centre edges K), underPeak peak edges conv k p

/-- The factor for components with the backgrounds `bs`, the smallest being `b`. -/
noncomputable def alpha (eps2 b : ℝ) (bs : List ℝ) : ℝ :=
  (1 + eps2 * b) / (1 + eps2 * b * (bs.map (fun x => (b / x) ^ 2)).sum)

/-- What a weight should be: the value of the map of weights where it has one, else one. -/
def wanted (inside : Bool) (value : Res ℝ) : ℝ :=
  match inside, value with
  | true, .ok w => w
  | _, _ => 1

/-- Whether there is a value. -/
def covered (inside : Bool) (value : Res ℝ) : Bool :=
  match inside, value with
  | true, .ok _ => true
  | _, _ => false

end Verif.Weights.Spec
