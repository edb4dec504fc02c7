import Verif.HpxMap.Types
import Mathlib.Algebra.BigOperators.Group.Finset.Defs
import Mathlib.Analysis.SpecialFunctions.Log.Basic
import Mathlib.Analysis.SpecialFunctions.Pow.Real
import Mathlib.Analysis.SpecialFunctions.Trigonometric.Basic
/-
Specification of maps in equal-area pixels, independent of the model.
-/
namespace Verif.HpxMap.Spec
variable {δ : Type}

/-- The number of pixels of the sky. -/
def pixels (nside : Nat) : Nat := 12 * nside * nside

/-- The value of a pixel of an image. -/
def at' (m : Map) (k i : Nat) : ℝ := ((m.planes[k]?.bind fun p => p.vals[i]?).getD 0)

/-- A complete map: positive side, positive increasing energies, for each of them an image of the whole sky. -/
structure Tidy (m : Map) : Prop where
  side : 0 < m.nside
  grid : m.energies ≠ []
  pos : ∀ e ∈ m.energies, 0 < e
  inc : m.energies.Pairwise (· < ·)
  count : m.planes.length = m.energies.length
  whole : ∀ p ∈ m.planes, p.nside = m.nside ∧ p.nest = m.nest ∧ p.vals.length = pixels m.nside

/-- Every direction is in a pixel of the sky, the centre of a pixel is in the pixel. -/
structure Sound (lib : Library δ) : Prop where
  range : ∀ n s d, 0 < n → lib.pixel n s d < pixels n
  centre : ∀ n s i, i < pixels n → lib.pixel n s (lib.centre n s i) = i

/-- The weights of the interpolation are those of an average over pixels of the sky. -/
structure Convex (lib : Library δ) : Prop where
  range : ∀ n s d, 0 < n → ∀ w ∈ lib.weights n s d, w.1 < pixels n ∧ 0 ≤ w.2
  one : ∀ n s d, 0 < n → ((lib.weights n s d).map Prod.snd).sum = 1

/-- The integral over the sky of an image with the given pixels. -/
noncomputable def skyIntegral (nside : Nat) (vals : List ℝ) : ℝ := 4 * Real.pi / (pixels nside : ℝ) * vals.sum

/-- An element of a list of numbers. -/
def nth (l : List ℝ) (k : Nat) : ℝ := l[k]?.getD 0

/-- The integral over energy: each step of the energies with its mean of energy times value, in the logarithm. -/
noncomputable def energyIntegral (es vs : List ℝ) : ℝ :=
  ∑ k ∈ Finset.range (es.length - 1),
    (nth es (k + 1) * nth vs (k + 1) + nth es k * nth vs k) / 2 * Real.log (nth es (k + 1) / nth es k)

/-- The power law through two points. -/
noncomputable def power (e e1 e2 y1 y2 : ℝ) : ℝ := y1 * (e / e1) ^ (Real.log (y2 / y1) / Real.log (e2 / e1))

end Verif.HpxMap.Spec
