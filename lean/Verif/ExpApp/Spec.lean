import Verif.ExpApp.Types
/-
What the times in a header are to be.
-/
namespace Verif.ExpApp.Spec

/-- `t` is the earliest start. -/
def Earliest (l : List Gti) (t : ℝ) : Prop := (∃ g ∈ l, g.1 = t) ∧ ∀ g ∈ l, t ≤ g.1

/-- `t` is the latest stop. -/
def Latest (l : List Gti) (t : ℝ) : Prop := (∃ g ∈ l, g.2 = t) ∧ ∀ g ∈ l, g.2 ≤ t

/-- The intervals are in the order of time. -/
def InOrder (l : List Gti) : Prop := l.Pairwise (fun a b => a.1 ≤ b.1 ∧ a.2 ≤ b.2)

/-- The good times that count: those of the livetime cube if there is one. -/
def Times (x : Input) (l : List Gti) : Prop := x.cube = some l ∨ (x.cube = none ∧ x.events = l)

end Verif.ExpApp.Spec
