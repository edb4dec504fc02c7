import Verif.Basic
import Verif.GaussPar.Types
import Mathlib.Data.Real.Sqrt
import Mathlib.Analysis.SpecialFunctions.Trigonometric.Basic
/-
`Event::computeGaussianParams`, src/Event.cxx:321-343, and `setDiffuseResponse` with such parameters, 489-501.

Simplifications.  Sums are exact; the energies and the response come as one list of pairs, as both have one entry
per true energy (Event.cxx:259-262).
-/
namespace Verif.GaussPar
open Verif

/-- The sums of the loop, Event.cxx:328-336. -/
structure Sums where
  norm : ℝ
  e : ℝ
  e2 : ℝ

/-- One turn of the loop, Event.cxx:329-335. -/
noncomputable def turn (s : Sums) (p q : Point) : Sums :=
  let d := q.1 - p.1
  ⟨s.norm + d * (p.2 + q.2) / 2, s.e + d * (p.1 * p.2 + q.1 * q.2) / 2,
    s.e2 + d * (p.1 * p.1 * p.2 + q.1 * q.1 * q.2) / 2⟩

/-- The loop, Event.cxx:328-336. -/
noncomputable def sums (s : Sums) : List Point → Sums
  | p :: q :: l => sums (turn s p q) (q :: l)
  | _ => s

/-- `computeGaussianParams`, Event.cxx:321-343.  Without energies the bound of the loop, an unsigned number, wraps
around. -/
noncomputable def params (energy : ℝ) (l : List Point) : Res Params :=
  match l with
  | [] => .ub
  | _ =>
    let s := sums ⟨0, 0, 0⟩ l
    if s.norm ≤ 0 then .ok ⟨s.norm, energy, energy / 10⟩
    else
      let mean := s.e / s.norm
      .ok ⟨s.norm, mean, Real.sqrt (s.e2 / s.norm - mean * mean)⟩

/-- `setDiffuseResponse`, Event.cxx:489-501. -/
noncomputable def gauss (g : Params) (energies : List ℝ) : Res (List ℝ) :=
  if g.sigma = 0 ∧ energies ≠ [] then .ub
  else .ok (energies.map fun x => g.norm / Real.sqrt (2 * Real.pi) / g.sigma *
    Real.exp (-(x - g.mean) * (x - g.mean) / g.sigma / g.sigma / 2))

end Verif.GaussPar
