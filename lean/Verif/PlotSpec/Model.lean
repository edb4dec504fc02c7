import Verif.Basic
import Verif.PlotSpec.Types
import Mathlib.Data.Real.Sqrt
import Mathlib.Analysis.SpecialFunctions.Log.Basic
/-
The plot of counts spectra at the end of `gtlike`: `likelihood::plotCountsSpectra`.

Simplifications.  Real numbers for doubles; a division by zero, which gives no usable number, is `.ub`.  The
calls of the plotting library only record their arguments.  Energies, observed counts and the counts of each
source are given by the likelihood; the energies of the lines, which are made by a second object, are those of
the points (`lineBounds` shows how they are set).  Reads and divisions are done bin by bin instead of in one
loop after the other.
-/
namespace Verif.PlotSpec
open Verif

/-- `v.at(k)`. -/
def vAt (l : List ℝ) (k : Nat) : Res ℝ :=
  match l[k]? with
  | some a => .ok a
  | none => .throws

open Classical in
/-- A division. -/
noncomputable def divide (x y : ℝ) : Res ℝ := if y = 0 then .ub else .ok (x / y)

/-- `setEbounds`, CountsSpectra.cxx:22-34. -/
noncomputable def setEbounds (emin emax : ℝ) (n : Nat) : List ℝ :=
  (List.range (n - 1)).map (fun k : Nat =>
    emin * Real.exp ((k : ℝ) * (Real.log (emax / emin) / ((n : ℝ) - 1)))) ++ [emax]

/-- The energies of the points without bins, likelihood.cxx:475-480. -/
noncomputable def pointBounds (emin emax : ℝ) : List ℝ := setEbounds emin emax 21

/-- The energies of the lines without bins, likelihood.cxx:502-506: `num_fine_points` is the number of the
energies of the points times `1`. -/
noncomputable def lineBounds (eb : List ℝ) : Res (List ℝ) := do
  let a ← vget eb 0
  let b ← vget eb (eb.length - 1)
  .ok (setEbounds a b (eb.length * 1))

/-- The energy at which a bin is drawn, likelihood.cxx:489, 512. -/
noncomputable def energy (eb : List ℝ) (k : Nat) : Res ℝ := do
  let a ← vAt eb k
  let b ← vAt eb (k + 1)
  .ok (Real.sqrt (a * b))

/-- The width of a bin, likelihood.cxx:490, 513. -/
def width (eb : List ℝ) (k : Nat) : Res ℝ := do
  let a ← vAt eb k
  let b ← vAt eb (k + 1)
  .ok (b - a)

/-- The observed points, likelihood.cxx:485-498, 532. -/
noncomputable def observed (eb nobs : List ℝ) : Res (List Point) :=
  (List.range (eb.length - 1)).mapM fun k => do
    let x ← energy eb k
    let w ← width eb k
    let c ← vAt nobs k
    let y ← divide c w
    let err ← divide (Real.sqrt c) w
    .ok ⟨x, y, err⟩

/-- The counts of a source divided by the widths, likelihood.cxx:538-543. -/
noncomputable def densities (eb npred : List ℝ) : Res (List ℝ) := do
  let l ← (List.range (eb.length - 1)).mapM fun k => do
    let w ← width eb k
    let c ← vget npred k
    divide c w
  .ok (l ++ npred.drop (eb.length - 1))

/-- The points of a line, likelihood.cxx:545, 553. -/
noncomputable def line (eb ys : List ℝ) : Res (List (ℝ × ℝ)) :=
  (List.range (eb.length - 1)).mapM fun k => do
    let x ← energy eb k
    let y ← vget ys k
    .ok (x, y)

/-- One source added to the sum, likelihood.cxx:546-551. -/
def addTo (tot ys : List ℝ) : Res (List ℝ) :=
  (List.range tot.length).mapM fun k => do
    let a ← vAt tot k
    let b ← vAt ys k
    .ok (a + b)

/-- The sum over the sources, likelihood.cxx:534-535, 546-551: it has the length of the first. -/
def totals : List (List ℝ) → Res (List ℝ)
  | [] => .throws
  | y :: ys => (y :: ys).foldlM addTo (List.replicate y.length 0)

/-- The residuals, likelihood.cxx:557-562. -/
noncomputable def residuals (pts : List Point) (tot : List ℝ) : Res (List Point) :=
  (List.range tot.length).mapM fun k => do
    let p ← (match pts[k]? with | some p => .ok p | none => .throws : Res Point)
    let m ← vAt tot k
    let y ← divide (p.y - m) m
    let err ← divide p.err m
    .ok ⟨p.x, y, err⟩

/-- `plotCountsSpectra`, likelihood.cxx:472-577.  An empty list of energies ends in an exception at the first
access. -/
noncomputable def plot (eb nobs : List ℝ) (npreds : List (List ℝ)) : Res Plots :=
  if eb.length = 0 then .throws
  else do
    let pts ← observed eb nobs
    let ys ← npreds.mapM (densities eb)
    let tot ← totals ys
    let ls ← ys.mapM (line eb)
    let t ← line eb tot
    let r ← residuals pts tot
    .ok ⟨pts, ls, t, r⟩

end Verif.PlotSpec
