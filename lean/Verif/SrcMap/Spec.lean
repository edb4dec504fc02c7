import Verif.SrcMap.Types
import Mathlib.Algebra.BigOperators.Group.Finset.Basic
/-
What one expects of a source map: the image last given, and its sums.
-/
namespace Verif.SrcMap.Spec
open Finset

/-- The image a user expects after some calls: the one they gave last, or else the one
the map had at the start. -/
def latest (img : Image) : List Op → Image
  | [] => img
  | .setImage i :: os => latest i os
  | _ :: os => latest img os

/-- Ordinary use of the map of source `s` with images of `n` pixels: nothing is forced,
the source stays, files can be written, and no image is given while the map may be
dropped from memory (`c = true`). -/
def Ordinary (s n : Nat) : Bool → List Op → Prop
  | _, [] => True
  | c, .model b :: os => b = false ∧ Ordinary s n c os
  | c, .npreds _ :: os => Ordinary s n c os
  | _, .clear b :: os => b = false ∧ Ordinary s n true os
  | _, .reload :: os => Ordinary s n false os
  | c, .setSave b :: os => Ordinary s n (c && !b) os
  | c, .setImage i :: os => c = false ∧ i.length = n ∧ Ordinary s n c os
  | c, .setWeights _ :: os => Ordinary s n c os
  | c, .setSource t :: os => t = s ∧ Ordinary s n c os
  | c, .saveMap _ _ good :: os => good = true ∧ Ordinary s n c os

/-- The `i`-th pixel of an image, zero outside. -/
def px (m : Image) (i : Nat) : ℝ := m[i]?.getD 0

/-- The sum over plane `k`. -/
def planeSum (npix : Nat) (m : Image) (k : Nat) : ℝ := ∑ j ∈ range npix, px m (k * npix + j)

/-- The weight of a pixel. -/
def weight (w : Option Image) (i : Nat) : ℝ := (w.map fun w => px w i).getD 1

/-- The weighted sum over plane `k`. -/
def weightedSum (npix : Nat) (w : Option Image) (m : Image) (k : Nat) : ℝ :=
  ∑ j ∈ range npix, weight w (k * npix + j) * px m (k * npix + j)

/-- `l` lists the sums of the `ne` planes of `m` and `lw` the weighted ones. -/
def Sums (npix ne : Nat) (w : Option Image) (m : Image) (l lw : List ℝ) : Prop :=
  l.length = ne ∧ lw.length = ne ∧
  ∀ k < ne, px l k = planeSum npix m k ∧ px lw k = weightedSum npix w m k

end Verif.SrcMap.Spec
