import Verif.Basic
import Mathlib.Data.Real.Basic
/-
The limits of the bins in the cosine of the inclination that are written to a livetime cube, src/LikeExposure.cxx:232-248, 361-375, and read
back by `gtltsum`, src/gtaddlivetime/gtaddlivetime.cxx:101-116.  `double` is `ℝ`.
-/
namespace Verif.CosBins

/-- The body of the loop, LikeExposure.cxx:369-373.  Without bins the quotient is not a number. -/
noncomputable def bound (root : Bool) (cosmin : ℝ) (nbins i : Nat) : Res ℝ :=
  if nbins = 0 then .ub
  else
    let f : ℝ := (i : ℝ) / nbins
    let f := if root then f * f else f
    .ok (1 - f * (1 - cosmin))

/-- `computeCosbins`, LikeExposure.cxx:361-375.  The binning is the static one of the class `CosineBinner` (library healpix). -/
noncomputable def computeCosbins (root : Bool) (cosmin : ℝ) (nbins : Nat) : Res (List ℝ) :=
  (List.range (nbins + 1)).mapM (bound root cosmin nbins)

/-- `writeCosbins`, LikeExposure.cxx:232-248: the rows `(CTHETA_MIN, CTHETA_MAX)`. -/
noncomputable def writeCosbins (root : Bool) (cosmin : ℝ) (nbins : Nat) : Res (List (ℝ × ℝ)) := do
  let mubounds ← computeCosbins root cosmin nbins
  (List.range (mubounds.length - 1)).mapM (fun i => do
    let lo ← vget mubounds (i + 1)
    let hi ← vget mubounds i
    .ok (lo, hi))

/-- `get_costheta_bounds`, gtaddlivetime.cxx:101-116. -/
def readBounds : List (ℝ × ℝ) → List ℝ
  | [] => []
  | r :: rs => r.1 :: r.2 :: readBounds rs

end Verif.CosBins
