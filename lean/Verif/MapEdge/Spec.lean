import Verif.Basic
import Verif.MapEdge.Types
import Mathlib.Analysis.SpecialFunctions.Sqrt
/-
The edge of a map of `nx` times `ny` pixels.
-/
namespace Verif.MapEdge.Spec
open Verif

/-- The corners of the pixels that are at the edge of the map. -/
def EdgeCorner (nx ny : Nat) (c : Pos) : Prop :=
  ∃ i j : Nat, i ≤ nx ∧ j ≤ ny ∧ (i = 0 ∨ i = nx ∨ j = 0 ∨ j = ny) ∧ c = ⟨i + 1 / 2, j + 1 / 2⟩

/-- A position is in the map. -/
def InMap (nx ny : Nat) (c : Pos) : Prop :=
  1 / 2 ≤ c.x ∧ c.x ≤ nx + 1 / 2 ∧ 1 / 2 ≤ c.y ∧ c.y ≤ ny + 1 / 2

/-- The distance of two positions in a map that is flat, with pixels of the size `k`. -/
noncomputable def flat (k : ℝ) (a b : Pos) : ℝ := k * Real.sqrt ((a.x - b.x) ^ 2 + (a.y - b.y) ^ 2)

/-- `r` is the least of the values of `f` at the directions of the corners at the edge. -/
def Least {δ : Type} (proj : Pos → Res δ) (nx ny : Nat) (f : δ → ℝ) (r : ℝ) : Prop :=
  (∀ c d, EdgeCorner nx ny c → proj c = .ok d → r ≤ f d) ∧ ∃ c d, EdgeCorner nx ny c ∧ proj c = .ok d ∧ r = f d

end Verif.MapEdge.Spec
