import Verif.ScanNorm.Types
import Mathlib.Algebra.Order.Group.MinMax
/-
What a scan of a normalization has to give.
-/
namespace Verif.ScanNorm.Spec

/-- The lowest normalization: `sigma` lower errors below the best value, but at least 1e-10; without a lower
error 1e-10. -/
noncomputable def low (best sigma neg : ℝ) : ℝ := open Classical in if neg < 0 then 1e-10 else max 1e-10 (best - sigma * neg)

/-- The highest normalization: `sigma` upper errors above the best value, but at least 2.5e-4; without an upper
error 2.5e-4. -/
noncomputable def high (best sigma pos : ℝ) : ℝ := open Classical in if pos < 0 then 2.5e-4 else max 2.5e-4 (best + sigma * pos)

/-- The increase of minus the log likelihood at a distance `x` from the present value, for gradient `b` and curvature `h`. -/
noncomputable def increase (b h x : ℝ) : ℝ := b * x + h * x ^ 2 / 2

/-- The vectors used in fits. -/
def data (c : Cache) : List ℝ := if c.useReduced then c.dataRed else c.data

/-- The weights used in fits. -/
def weights (c : Cache) : Option (List ℝ) := if c.useReduced then c.weightsRed else c.weights

/-- The test source is the last of the models in the fit; all vectors have the size of the data; the bins of the
scan lie inside them, with an explicit end. -/
structure Fits (c : Cache) (ts : List (List ℝ)) (t : List ℝ) : Prop where
  test : c.test = some ts.length
  models : c.models = ts ++ [t]
  target : (if c.useReduced then c.targetRed else c.target) = t
  pars : c.pars.length = ts.length + 1
  fixed : c.fixed.length = (data c).length
  one : t.length = (data c).length
  others : ∀ s ∈ ts, s.length = (data c).length
  weights : ∀ w, weights c = some w → w.length = (data c).length
  range : c.first ≤ c.last
  last : 0 < c.last
  inside : c.last ≤ (data c).length

end Verif.ScanNorm.Spec
