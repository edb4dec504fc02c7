import Verif.Basic
import Verif.SpatConv.Types
import Mathlib.Algebra.Order.Archimedean.Real.Basic
import Mathlib.Algebra.Order.Floor.Semiring
/-
The map of a source with a spatial function (disk, Gaussian): `WcsMap2::convolve` with a
`SpatialFunction`.

Simplifications.  Real numbers for doubles and floats.  The response of the source at a distance, the
distances and the exposure are given.  `st_facilities::Util::interpolate` is not part of this code: it is
taken to interpolate linearly between the two neighbours, and to have no meaning at the last value or beyond.
-/
namespace Verif.SpatConv
open Verif

variable {D : Type}

/-- `theta_max`, WcsMap2.cxx:705. -/
noncomputable def thetaMax (g : Geom) : ℝ := g.far + 2 * g.cmax

/-- `theta_min`, WcsMap2.cxx:706. -/
noncomputable def thetaMin (g : Geom) : ℝ := g.cmin / 2

/-- `theta_nstep`, WcsMap2.cxx:707. -/
noncomputable def nstep (g : Geom) : Nat := ⌊thetaMax g / g.cmin + 1 / 2⌋₊ * 2

/-- `theta_step`, WcsMap2.cxx:708. -/
noncomputable def step (g : Geom) : ℝ := (thetaMax g - thetaMin g) / ((nstep g : ℝ) - 1)

/-- `theta[i]`, WcsMap2.cxx:714-719. -/
noncomputable def theta (g : Geom) (i : Nat) : ℝ :=
  if i = 0 then 0 else thetaMin g + ((i : ℝ) - 1) * step g

/-- The vector `theta`, WcsMap2.cxx:711, with `theta_nstep+1` entries. -/
noncomputable def thetas (g : Geom) : List ℝ := (List.range (nstep g + 1)).map (theta g)

/-- The vector `value`, WcsMap2.cxx:712-719. -/
noncomputable def values (g : Geom) (s : Src D) : List ℝ := (thetas g).map s.resp

open Classical in
/-- Linear interpolation. -/
noncomputable def interp : List ℝ → List ℝ → ℝ → Res ℝ
  | x0 :: x1 :: xs, y0 :: y1 :: ys, v =>
    if v < x1 then .ok ((v - x0) / (x1 - x0) * (y1 - y0) + y0) else interp (x1 :: xs) (y1 :: ys) v
  | _, _, _ => .ub

open Classical in
/-- The response at a pixel, WcsMap2.cxx:736-737. -/
noncomputable def response (g : Geom) (s : Src D) (d : D) : Res ℝ :=
  if s.angle d > theta g (nstep g) then .ok 0 else interp (thetas g) (values g s) (s.angle d)

/-- One pixel, WcsMap2.cxx:729-741: `none` is a pixel that is not on the sky, the exposure may be absent
and is taken at the middle of the source. -/
noncomputable def pixel (g : Geom) (s : Src D) (expo : Option (D → ℝ)) : Option D → Res ℝ
  | none => .ok 0
  | some d => do
    let v ← response g s d
    let e : ℝ := match expo with
      | some f => f s.mid
      | none => 1
    .ok (v * e)

/-- `convolve`, WcsMap2.cxx:686-748: the layer, row by row. -/
noncomputable def convolve (g : Geom) (s : Src D) (expo : Option (D → ℝ)) (perform : Bool)
    (dirs : List (List (Option D))) : Res (List (List ℝ)) :=
  if perform then dirs.mapM fun r => r.mapM (pixel g s expo) else .throws

end Verif.SpatConv
