import Verif.HpxExp.Types
import Mathlib.Algebra.BigOperators.Group.List.Basic
/-
What a HEALPix exposure map has to give.
-/
namespace Verif.HpxExp.Spec
open Verif.HpxExp

/-- The pixels cover the sky, and the centre of each pixel is in it. -/
structure Good {D : Type} (s : Sky D) : Prop where
  covers : ∀ d, 0 ≤ s.pix d ∧ s.pix d < s.npix
  centre : ∀ i : Nat, i < s.npix → s.pix (s.centre i) = i

/-- The exposure for a direction and an energy: the livetime integrals of all response functions at
the centre of the pixel the direction is in. -/
noncomputable def exposure {D : Type} (s : Sky D) (f : D → ℝ → Nat → ℝ) (resps : List Nat) (d : D) (e : ℝ) : ℝ :=
  (resps.map (f (s.centre (s.pix d).toNat) e)).sum

/-- A file whose table of exposures has a column for each energy and a row for each pixel. -/
structure Complete {D : Type} (s : Sky D) (file : File) : Prop where
  rows : file.nrow = s.npix
  lengths : ∀ c ∈ file.columns, c.2.length = file.nrow
  columns : file.columns.length = file.energies.length

end Verif.HpxExp.Spec
