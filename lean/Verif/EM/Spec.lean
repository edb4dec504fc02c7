import Verif.EM.Model
/-
The likelihood that is to be maximised.
-/
namespace Verif.EM.Spec
open Verif.EM (Src)

variable {P E : Type}

/-- The density of all sources together. -/
def density (srcs : List (Src P E × P)) (e : E) : ℝ := (srcs.map fun s => s.1.dens s.2 e).sum

/-- The unbinned likelihood of the model: the sum over the events of the logarithm of the
density, less the predicted counts. -/
noncomputable def logLike (events : List E) (srcs : List (Src P E × P)) : ℝ :=
  (events.map fun e => Real.log (density srcs e)).sum - (srcs.map fun s => s.1.npred s.2).sum

/-- The densities are densities, and every event can come from some source. -/
def Proper (events : List E) (srcs : List (Src P E × P)) : Prop :=
  (∀ s ∈ srcs, ∀ p e, 0 ≤ s.1.dens p e) ∧ ∀ e ∈ events, 0 < density srcs e

end Verif.EM.Spec
