import Verif.FitUtils.Model
/-
Specification for the scan likelihood: bin-wise sums written independently of the
code's loops.
-/
open scoped BigOperators

namespace Verif.FitUtils.Spec

open Verif.FitUtils (val mat)

/-- `Σ_i norm_i · template_i` in bin `k`. -/
noncomputable def tmplSum : List ℝ → List (List ℝ) → Nat → ℝ
  | n :: ns, t :: ts, k => n * val t k + tmplSum ns ts k
  | _, _, _ => 0

/-- The model prediction in bin `k`: fixed part plus scaled templates. -/
noncomputable def modelAt (norms : List ℝ) (templates : List (List ℝ)) (fixed : List ℝ) (k : Nat) :
    ℝ := val fixed k + tmplSum norms templates k

/-- All vectors have the length of the data. -/
def SameLength (n : Nat) (templates : List (List ℝ)) : Prop := ∀ t ∈ templates, t.length = n

/-- The whole planes of a cube with `npix` pixels per plane: `ne` planes. -/
def WholePlanes (data : List ℝ) (ne npix : Nat) : Prop := 0 < npix ∧ data.length = ne * npix

/-- End of the selected bins: `last`, or all of them if `last = 0`. -/
def lastSel (n last : Nat) : Nat := if last = 0 then n else last

/-- Shapes required by the scan likelihood: every vector has the size of the data,
one template per normalisation, the selected bins `[first, last)` (`last = 0` means
"to the end") lie inside. -/
structure Shapes (data norms : List ℝ) (ts : List (List ℝ)) (fixed : List ℝ)
    (weights : Option (List ℝ)) (scratch : List ℝ) (first last : Nat) : Prop where
  fixed : fixed.length = data.length
  scratch : scratch.length = data.length
  norms : ts.length = norms.length
  templates : SameLength data.length ts
  weights : ∀ w, weights = some w → w.length = data.length
  first : first ≤ lastSel data.length last
  last : last ≤ data.length

/-- Bin `k` is among the selected bins. -/
def InRange (n first last k : Nat) : Prop := first ≤ k ∧ k < lastSel n last

/-- The weight of bin `k`; 1 without weights. -/
noncomputable def weightAt (weights : Option (List ℝ)) (k : Nat) : ℝ :=
  match weights with
  | none => 1
  | some w => val w k

/-- The template of parameter `i` in bin `k`. -/
noncomputable def tmplAt (ts : List (List ℝ)) (i k : Nat) : ℝ := val (ts[i]?.getD []) k

/-- A prior whose Hessian is symmetric. -/
def SymPrior (p : Verif.FitUtils.MVPrior) : Prop := ∀ a b, mat p.hessian a b = mat p.hessian b a

end Verif.FitUtils.Spec
