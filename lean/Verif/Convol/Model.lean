import Verif.Convol.Types
import Mathlib.Analysis.SpecialFunctions.Complex.Circle
/-
Model of src/Convolve.cxx and of `WcsMap2::convolve` (src/WcsMap2.cxx), which uses it.  Floating point numbers are real
numbers.  The FFTW library is not modelled: its transforms are the discrete Fourier transforms they are documented to be.
-/
namespace Verif.Convol
open Vec

/-- `.at()`. -/
def vat {α : Type} (l : List α) (i : Nat) : Res α :=
  match l[i]? with
  | some x => .ok x
  | none => .throws

/-- One row of an image into an array, Convolve.cxx:60-65: `base` is the index of the first pixel. -/
noncomputable def fillRow (base size : Nat) : List ℝ → Nat → List ℂ → List ℂ
  | [], _, a => a
  | x :: xs, i, a => fillRow base size xs (i + 1) (if base + i < size then a.set (base + i) (x : ℂ) else a)

/-- The rows of an image into an array, Convolve.cxx:59-66. -/
noncomputable def fillRows (nx dx dy size : Nat) : Image → Nat → List ℂ → List ℂ
  | [], _, a => a
  | r :: rs, j, a => fillRows nx dx dy size rs (j + 1) (fillRow ((j + dy) * nx + dx) size r 0 a)

/-- Size and offset, Convolve.cxx:40-50: an image that is larger than the size is not cut, the size is changed. -/
def place (n len : Nat) : Nat × Nat := if n = 0 ∨ n < len then (len, 0) else (n, (n - len) / 2)

/-- `complexArray` with `fill`, Convolve.cxx:37-69.  (Without, it is a place for results.) -/
noncomputable def complexArray (input : Image) (nx ny : Nat) : Res (List ℂ) := do
  let y := place ny input.length
  let r ← vat input 0
  let x := place nx r.length
  .ok (fillRows x.1 x.2 y.2 (x.1 * y.1) input 0 (List.replicate (x.1 * y.1) 0))

/-- `fftw_plan_dft_2d` and `fftw_execute`: the sum over all elements (row `j / n1`, column `j % n1`) with the sign of the exponent. -/
noncomputable def dft2 (sign : ℤ) (n0 n1 : Nat) (a : List ℂ) : List ℂ :=
  (List.range (n0 * n1)).map fun k => ∑ j ∈ Finset.range (n0 * n1), val a j *
    Complex.exp (sign * (2 * Real.pi * Complex.I) *
      (((j / n1 : Nat) : ℂ) * ((k / n1 : Nat) : ℂ) / n0 + ((j % n1 : Nat) : ℂ) * ((k % n1 : Nat) : ℂ) / n1))

/-- `fftw_plan_dft_1d` and `fftw_execute`. -/
noncomputable def dft1 (sign : ℤ) (n : Nat) (a : List ℂ) : List ℂ :=
  (List.range n).map fun k : Nat => ∑ j ∈ Finset.range n, val a j *
    Complex.exp (sign * (2 * Real.pi * Complex.I) * ((j : ℂ) * (k : ℂ) / n))

/-- The order in which results are taken, Convolve.cxx:144-167 and 206-211. -/
def rolled (n : Nat) : List Nat := List.range' (n / 2 - 1) (n - (n / 2 - 1)) ++ List.range (n / 2 - 1)

/-- `subArray`, Convolve.cxx:70-83. -/
def subArray (input signal : Image) : Res Image := do
  let dx := (input.length - signal.length) / 2
  let i0 ← vat input 0
  let s0 ← vat signal 0
  let dy := (i0.length - s0.length) / 2
  (List.range signal.length).mapM fun i => do
    let s ← vat signal i
    (List.range s.length).mapM fun j => do
      let r ← vat input (i + dx)
      vat r (j + dy)

/-- The number of rows and columns of the padded arrays, Convolve.cxx:96-107. -/
def padded (signal : Image) (row : List ℝ) : Nat := 2 * max row.length signal.length

/-- `convolve2d`, Convolve.cxx:88-172. -/
noncomputable def convolve2d (signal psf : Image) : Res Image := do
  if signal.length < psf.length then .throws
  else do
    let r ← vat signal 0
    let n := padded signal r
    let a ← complexArray signal n n
    let out := dft2 (-1) n n a
    let b ← complexArray psf n n
    let opsf := dft2 (-1) n n b
    let iconv := List.zipWith (· * ·) out opsf
    let oconv := dft2 1 n n iconv
    subArray ((rolled n).map fun i => (rolled n).map fun j => (val oconv (i * n + j)).re / ((n * n : Nat) : ℝ)) signal

/-- `convolve`, Convolve.cxx:174-225.  For less than two numbers `size()/2 - 1` is the largest number there is, and
the second loop reads beyond the result. -/
noncomputable def convolve1 (signal psf : List ℝ) : Res (List ℝ) :=
  if psf.length ≠ signal.length then .throws
  else if signal.length < 2 then .ub
  else
    let n := signal.length
    let out := dft1 (-1) n (signal.map fun x : ℝ => (x : ℂ))
    let opsf := dft1 (-1) n (psf.map fun x : ℝ => (x : ℂ))
    let oconv := dft1 1 n (List.zipWith (· * ·) out opsf)
    .ok ((rolled n).map fun i => (val oconv i).re / n)

/-- `check_negative_pixels`, WcsMap2.cxx:1066-1074. -/
noncomputable def checkNegative (m : Image) : Res Unit :=
  open Classical in if m.any (fun r => r.any fun x => decide (x < 0)) then .throws else .ok ()

/-- `Image::normalize`, WcsMap2.cxx:43-55; a sum of zero gives NaN, here `ub`. -/
noncomputable def normalize (m : Image) : Res Image :=
  open Classical in
  if (m.map List.sum).sum = 0 then .ub else .ok (m.map fun r => r.map fun x => x / (m.map List.sum).sum)

/-- The counts in every pixel, WcsMap2.cxx:610-628.  `m_image[k][j][i]` is within the image for maps as they are read. -/
noncomputable def countsMap (sky : Sky) (m : Image) (n1 n2 : Nat) : Image :=
  (List.range n2).map fun j => (List.range n1).map fun i =>
    if sky.inside i j then
      match sky.expo with
      | some e => pix m j i * e i j
      | none => pix m j i
    else 0

/-- `npix`, WcsMap2.cxx:640-656. -/
def npix (n1 n2 : Nat) : Nat :=
  let n := if n1 ≤ n2 then n1 else n2
  if n % 2 = 0 then n - 1 else n

/-- The image of the point spread function, WcsMap2.cxx:663-675. -/
noncomputable def psfImage (sky : Sky) (n : Nat) : Image :=
  (List.range n).map fun j => (List.range n).map fun i =>
    match sky.angle n i j with
    | some t => sky.psf t
    | none => 0

/-- `WcsMap2::convolve` for one energy, WcsMap2.cxx:602-683, for a map with at least one pixel. -/
noncomputable def convolveMap (sky : Sky) (m : Image) (n1 n2 : Nat) (perform : Bool) : Res Image :=
  let c := countsMap sky m n1 n2
  if !perform then .ok c
  else do
    let k ← normalize (psfImage sky (npix n1 n2))
    let _ ← checkNegative c
    let _ ← checkNegative k
    convolve2d c k

end Verif.Convol
