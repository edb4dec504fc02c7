import Verif.HistND.Model
import Mathlib.Data.Real.Basic
/-
Types shared by the model and the specification of maps of model counts.
-/
namespace Verif.ModMap
open Verif.HistND

/-- The counts map of a likelihood object: sizes, or pixels and energies of a HEALPix map. -/
inductive Cmap where
  | wcs (nx ny ne : Nat)
  | hpx (pix energy : Binner ℝ)

/-- What is written: an image with its sizes, or a table with one column for each plane. -/
inductive Out where
  | image (dims : List Nat) (data : List ℝ)
  | columns (cols : List (List ℝ))

end Verif.ModMap
