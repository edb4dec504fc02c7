import Verif.StScan.Types
/-
Specification, independent of the model.
-/
namespace Verif.StScan.Spec
open Vec

/-- The same parameters, with the same values unless they are free. -/
def Frame (ps qs : List Par) : Prop :=
  qs.length = ps.length ∧ ∀ (j : Nat) (p q : Par), ps[j]? = some p → qs[j]? = some q →
    q.lo = p.lo ∧ q.hi = p.hi ∧ q.free = p.free ∧ (p.free = false → q.value = p.value)

/-- An optimizer changes free parameters only and gives an uncertainty for each of them. -/
structure Respects (f : Fitter) : Prop where
  minimize : ∀ k ps, Frame ps (f.minimize k ps).1
  uncertainties : ∀ k ps, (f.minimize k ps).2.length = ps.countP (·.free)
  reminimize : ∀ k ps, Frame ps (f.reminimize k ps)

/-- The parameters with one of them free or fixed. -/
def flagged (ps : List Par) (i : Nat) (b : Bool) : List Par := ps.modify i (fun p => { p with free := b })

/-- The lowest normalization of a scan, for a best value and an error. -/
noncomputable def first (best err : ℝ) : ℝ := max 1e-10 (best - 10 * err)

/-- The highest one. -/
noncomputable def last (best err : ℝ) : ℝ := max 2.5 (best + 10 * err)

end Verif.StScan.Spec
