import Verif.TsScan.Types
import Mathlib.Analysis.SpecialFunctions.Sqrt
/-
Specification, independent of the model.
-/
namespace Verif.TsScan.Spec
open Vec

/-- The mean of both errors, or the upper one. -/
noncomputable def err (pos neg : ℝ) : ℝ := open Classical in if neg < 0 then pos else (pos + neg) / 2

/-- A map at a position: after a failed fit only the status. -/
noncomputable def mapAt (null : ℝ) (b : Broad) : MapKey → ℝ
  | .status => b.status
  | .ts => if b.status = 0 then 2 * (b.logLike - null) else 0
  | .norm => if b.status = 0 then b.norm else 0
  | .sym => if b.status = 0 then err b.pos b.neg else 0
  | .pos => if b.status = 0 then b.pos else 0
  | .neg => if b.status = 0 then b.neg else 0

/-- A cube at a position and an energy: after a failed fit at the position only its status. -/
noncomputable def cubeAt (b : Broad) (c : Bin) : CubeKey → ℝ
  | .status => if b.status = 0 then c.status else b.status
  | .ts => if b.status = 0 then 2 * (c.logLike - val c.logLikes 0) else 0
  | .norm => if b.status = 0 then c.norm else 0
  | .sym => if b.status = 0 then err c.pos c.neg else 0
  | .pos => if b.status = 0 then c.pos else 0
  | .neg => if b.status = 0 then c.neg else 0
  | .ul => if b.status = 0 then c.ul else 0
  | .logLike => if b.status = 0 then c.logLike else 0

/-- A scan at a position, an energy and a normalization. -/
noncomputable def scanAt (b : Broad) (c : Bin) (n : Nat) : ScanKey → ℝ
  | .norm => if b.status = 0 then val c.norms n else 0
  | .dLogLike => if b.status = 0 then val c.logLikes n - c.logLike else 0

/-- Results of fits with the right number of energies and normalizations wherever the fit succeeds. -/
def Complete (f : Fits) (bins : Nat → Nat → List Bin) (nx ny nE nNorm : Nat) : Prop :=
  ∀ ix iy, ix < nx → iy < ny → (f.broad ix iy).status = 0 → f.sed ix iy = .ok (bins ix iy) ∧ (bins ix iy).length = nE ∧
    ∀ b ∈ bins ix iy, b.norms.length = nNorm ∧ b.logLikes.length = nNorm

/-- An element of an array in a cell of a table: the first index changes fastest. -/
def element (cell : List ℝ) (d1 i1 i2 : Nat) : ℝ := val cell (i2 * d1 + i1)

/-- A log likelihood that is quadratic, with its maximum at `x` and the variance `v`. -/
noncomputable def parabola (l x v y : ℝ) : ℝ := l - (y - x) ^ 2 / (2 * v)

end Verif.TsScan.Spec
