import Verif.Spectra.Spec
import Mathlib.Analysis.SpecialFunctions.Pow.Real
/-
Spectra made of power laws between given energies.
-/
namespace Verif.Pieces
open Verif.Spectra

/-- `f` is a power law with index `g` on the set of (positive) energies. -/
def PowerOn (S : Set ℝ) (g : ℝ) (f : ℝ → ℝ) : Prop := ∃ c, ∀ x ∈ S, 0 < x → f x = c * x ^ g

/-- The energies are positive and increasing. -/
def Increasing (es : List ℝ) : Prop := es.Pairwise (· < ·) ∧ ∀ e ∈ es, 0 < e

/-- `f` is a power law below the first energy, between neighbouring energies and above the
last one, the ranges including their ends: the `j`-th range has the index `g j`. -/
structure PowerPieces (es : List ℝ) (g : Nat → ℝ) (f : ℝ → ℝ) : Prop where
  below : ∀ e, es.head? = some e → PowerOn (Set.Iic e) (g 0) f
  between : ∀ j a b, es[j]? = some a → es[j + 1]? = some b → PowerOn (Set.Icc a b) (g (j + 1)) f
  above : ∀ e, es.getLast? = some e → PowerOn (Set.Ici e) (g es.length) f

/-- The flux at the `k`-th energy of a `PiecewisePowerLaw` with the parameters
IndexL, IndexH, dNdE0, dNdE1, …: dNdE`k`, or, unless decoupled and
except for the first, dNdE`k` times dNdE0. -/
def flux (dec : Bool) (p : Pars) (k : Nat) : ℝ :=
  if dec = true ∨ k = 0 then (p (2 + k)).tv else (p (2 + k)).tv * (p 2).tv

end Verif.Pieces
