import Verif.Basic
import Verif.Energy.Model
import Mathlib.Analysis.SpecialFunctions.Trigonometric.Basic
import Mathlib.Algebra.BigOperators.Group.Finset.Basic
/-
The map of counts of a point source: src/PSFUtils.cxx, Likelihood/Pixel.h, and for healpix maps
src/ConvolveHealpix.cxx.

Numbers are reals.  The estimates of the point-spread function at the pixels, the solid angles and
the separations are inputs.
-/
namespace Verif.PsfMap
open Real

/-- What `makePointSourceMap_wcs` uses: numbers of pixels and of energies, solid angles, the estimate
of the point-spread function for an energy and a pixel, the separation of a pixel from the source,
`psfRadius`, the integral of the point-spread function up to it, the exposures, and the three
switches. -/
structure In where
  npix : Nat
  ne : Nat
  sol : Nat → ℝ
  psf : Nat → Nat → ℝ
  sep : Nat → ℝ
  radius : ℝ
  integ : Nat → ℝ
  expo : List ℝ
  /-- `do_psf_convolution` -/
  conv : Bool
  /-- `do_exposure` -/
  doExp : Bool
  /-- `apply_map_corrections` -/
  correct : Bool
  /-- `config.verbose()` -/
  verbose : Bool

/-- `mapIntegrals[k-kmin] += value` for pixels close to the source, PSFUtils.cxx:992-993. -/
noncomputable def addIntegral (x : In) (kmin k j : Nat) (I : List ℝ) : Res (List ℝ) :=
  open Classical in
  if x.sep j ≤ x.radius then do
    let v ← vget I (k - kmin)
    vset I (k - kmin) (v + x.psf k j * x.sol j)
  else .ok I

/-- PSFUtils.cxx:996-998. -/
noncomputable def withExposure (x : In) (k : Nat) (value : ℝ) : Res ℝ :=
  if x.doExp then do
    let e ← vget x.expo k
    .ok (value * e)
  else .ok value

/-- One pixel and energy, PSFUtils.cxx:974-1000; the remainder by `npts/20` for the progress dots
is undefined when that is zero. -/
noncomputable def step (x : In) (kmin nb j k : Nat) (s : List ℝ × List ℝ) : Res (List ℝ × List ℝ) :=
  if x.ne ≤ k then .ub
  else if x.verbose ∧ nb * x.npix / 20 = 0 then .ub
  else do
    let I ← addIntegral x kmin k j s.2
    let value ← withExposure x k (x.psf k j * x.sol j)
    let old ← vget s.1 ((k - kmin) * x.npix + j)
    let m ← vset s.1 ((k - kmin) * x.npix + j) (old + value)
    .ok (m, I)

/-- The loops over the pixels and energies, PSFUtils.cxx:971-1002. -/
noncomputable def fill (x : In) (kmin nb : Nat) (m : List ℝ) : Res (List ℝ × List ℝ) :=
  loop (fun j s => loop (fun k s => step x kmin nb j k s) kmin nb s) 0 x.npix (m, List.replicate nb 0)

/-- The correction factor, PSFUtils.cxx:1013-1016. -/
noncomputable def factor (integral sum : ℝ) : ℝ := open Classical in if sum ≠ 0 then integral / sum else 0

/-- The correction of one layer, PSFUtils.cxx:1006-1023.  `kk-kmin` is negative for the energies
before the first. -/
noncomputable def correctLayer (x : In) (kmin : Nat) (I : List ℝ) (kk : Nat) (m : List ℝ) : Res (List ℝ) :=
  if kk < kmin then .ub
  else do
    let s ← vget I (kk - kmin)
    loop (fun j m => do
      let v ← vget m ((kk - kmin) * x.npix + j)
      vset m ((kk - kmin) * x.npix + j) (v * factor (x.integ kk) s)) 0 x.npix m

/-- PSFUtils.cxx:963-1024. -/
noncomputable def convolved (x : In) (kmin nb : Nat) (m : List ℝ) : Res (List ℝ) := do
  let s ← fill x kmin nb m
  if x.correct then loop (correctLayer x kmin s.2) 0 x.ne s.1 else .ok s.1

/-- The distance of the closest pixel and its position, `Pixel::find`, Pixel.h:74-81. -/
noncomputable def closest : List ℝ → Nat → ℝ × Nat → ℝ × Nat
  | [], _, best => best
  | d :: ds, i, best => closest ds (i + 1) (open Classical in if d < best.1 then (d, i) else best)

/-- `Pixel::find`, Pixel.h:71-89, for the distances (in radians) of the pixels; for no pixels the
first is read. -/
noncomputable def find (dists : List ℝ) (sol : Nat → ℝ) (fudge : ℝ) : Res (Option Nat) := do
  let d0 ← vget dists 0
  let best := closest dists 0 (d0, 0)
  if 1 - sol best.2 / 2 / π < cos (best.1 / fudge) then .ok (some best.2) else .ok none

/-- The source in a single pixel, PSFUtils.cxx:1026-1036. -/
noncomputable def single (x : In) (kmin nb : Nat) (dists : List ℝ) (m : List ℝ) : Res (List ℝ) := do
  let target ← find dists x.sol 2
  match target with
  | none => .ok m
  | some ipix => loop (fun k m => do
      let v ← withExposure x k 1
      vset m ((k - kmin) * x.npix + ipix) v) kmin nb m

/-- `makePointSourceMap_wcs`, PSFUtils.cxx:887-1047.  A negative number of bins as the size of a
vector throws. -/
noncomputable def pointMap (x : In) (dists : List ℝ) (kmin : Nat) (kmax : ℤ) (m : List ℝ) : Res (List ℝ) :=
  let top := if kmax < 0 then x.ne else kmax.toNat
  if top < kmin then .throws
  else
    let m := vresize m ((top - kmin) * x.npix) 0
    if x.conv then convolved x kmin (top - kmin) m else single x kmin (top - kmin) dists m

/-- The exposures, PSFUtils.cxx:920-926, without an exposure map: those of the point-spread function,
which was made for the expanded energies, SourceMapCache.cxx:437-446; `f` is the exposure at an
energy. -/
noncomputable def psfExposures (f : ℝ → ℝ) (energies : List ℝ) (edispBins : Nat) : Res (List ℝ) := do
  let es ← Energy.expandEnergies energies edispBins
  .ok (es.map f)

/-! ### Healpix -/

/-- The mean over the parts of a pixel, ConvolveHealpix.cxx:143-150, 183-189. -/
noncomputable def partMean (n : Nat) (psf : Nat → ℝ) : ℝ := (∑ i ∈ Finset.range n, max (psf i) 0) / n

/-- The values before normalisation, ConvolveHealpix.cxx:104-189: the central pixel and its
neighbours by parts, other pixels of the disc at their centre, all others zero.  `psfC` is the
point-spread function at the centre of a pixel, `psfP` at the parts of a pixel. -/
noncomputable def raw (cp : Nat) (nb disc : Nat → Bool) (nPart nPartC : Nat) (psfC : Nat → ℝ) (psfP : Nat → Nat → ℝ)
    (i : Nat) : ℝ :=
  if i = cp then partMean nPartC (psfP i)
  else if disc i && nb i then partMean nPart (psfP i)
  else if disc i then max (psfC i) 0
  else 0

/-- The normalisation, ConvolveHealpix.cxx:192-197; `average` times the number of pixels is the
sum. -/
noncomputable def normalised (n : Nat) (v : Nat → ℝ) (fraction : ℝ) (i : Nat) : ℝ :=
  v i * (1 / ((∑ p ∈ Finset.range n, v p) / n * n) * fraction)

/-- One layer of `makePointSourceMap_healpix` with convolution, PSFUtils.cxx:1087-1096; `glo` is the
position of a pixel in the whole sky. -/
noncomputable def hpxLayer (nPix : Nat) (glo : Nat → Nat) (map : Nat → ℝ) (doExp : Bool) (e : ℝ) : List ℝ :=
  (List.range nPix).map fun i => if doExp then map (glo i) * e else map (glo i)

/-- One value without convolution, PSFUtils.cxx:1109-1112. -/
noncomputable def hpxSingle (solidAngle : ℝ) (doExp : Bool) (e : ℝ) : ℝ :=
  if doExp then solidAngle * e else solidAngle

end Verif.PsfMap
