import Verif.Basic
import Verif.Shift.Types
import Mathlib.Algebra.Order.Floor.Ring
import Mathlib.Algebra.Order.Archimedean.Real.Basic
/-
Model of `TestSourceModelCache` (src/FitScanner.cxx): the image of a test source is moved by whole pixels.
Floating point numbers are real numbers, and whole numbers are not bounded.
-/
namespace Verif.Shift

/-- Conversion of an offset to a whole number, FitScanner.cxx:116-120; `fmod(d, 1.)` has the sign of `d`. -/
noncomputable def rnd (d : ℝ) : ℤ :=
  open Classical in
  if 0 ≤ d then (if 1 / 2 < d - ⌊d⌋ then ⌈d⌉ else ⌊d⌋) else (if d - ⌈d⌉ < -(1 / 2) then ⌊d⌋ else ⌈d⌉)

/-- `std::copy` of a range to a place in another vector; a range that ends before it begins, and anything
outside the vectors, is undefined behaviour. -/
def copyTo (src : List ℝ) (a b o : ℤ) (dst : List ℝ) : Res (List ℝ) :=
  if 0 ≤ a ∧ a ≤ b ∧ b ≤ src.length ∧ 0 ≤ o ∧ o + (b - a) ≤ dst.length then
    .ok (dst.take o.toNat ++ (src.drop a.toNat).take (b - a).toNat ++ dst.drop (o + (b - a)).toNat)
  else .ub

/-- First index of the input, FitScanner.cxx:128, 132. -/
def startIn (k : ℤ) : ℤ := if k < 0 then -k else 0

/-- Index after the last one of the input, FitScanner.cxx:129, 133. -/
def stopIn (n : Nat) (k : ℤ) : ℤ := if k < 0 then n else n - k

/-- First index of the output, FitScanner.cxx:130, 134. -/
def startOut (k : ℤ) : ℤ := startIn k + k

/-- One row, FitScanner.cxx:147-156. -/
def copyRow (c : Cache) (kx ky : ℤ) (ie iy : Nat) (out : List ℝ) : Res (List ℝ) :=
  let rowIn : ℤ := (ie : ℤ) * (c.nx * c.ny) + (startIn ky * c.nx + ((iy : ℤ) - startIn ky) * c.nx)
  let rowOut : ℤ := (ie : ℤ) * (c.nx * c.ny) + (startOut ky * c.nx + ((iy : ℤ) - startIn ky) * c.nx)
  copyTo c.ref (rowIn + startIn kx) (rowIn + stopIn c.nx kx) (rowOut + startOut kx) out

/-- The rows of one energy bin, FitScanner.cxx:141-157.  The row is unsigned, so that a negative end is a
very large one, and the loop leaves the vectors. -/
def copyLayer (c : Cache) (kx ky : ℤ) (ie : Nat) (out : List ℝ) : Res (List ℝ) :=
  if stopIn c.ny ky < 0 then .ub
  else loop (copyRow c kx ky ie) (startIn ky).toNat (stopIn c.ny ky - startIn ky).toNat out

/-- `translateMap_Wcs`, FitScanner.cxx:106-178. -/
noncomputable def translateWcs (c : Cache) (dx dy : ℝ) (out : List ℝ) : Res (List ℝ) :=
  loop (copyLayer c (rnd dx) (rnd dy)) 0 c.ne (out.map fun _ => 1e-9)

/-- `translateMap`, FitScanner.cxx:64-79; `proj` gives the position of a direction in pixels. -/
noncomputable def translateMap {D : Type} (proj : D → ℝ × ℝ) (c : Cache) (dir : D) (out : List ℝ) : Res (List ℝ) :=
  translateWcs c ((proj dir).1 - c.refPixel.1) ((proj dir).2 - c.refPixel.2) out

/-- The constructor, FitScanner.cxx:51-62: `img` is the model of the source. -/
def Cache.new {D : Type} (proj : D → ℝ × ℝ) (refDir : D) (nx ny ne : Nat) (img : List ℝ) : Cache :=
  ⟨nx, ny, ne, img, proj refDir⟩

end Verif.Shift
