import Mathlib.Algebra.BigOperators.Group.Finset.Basic
import Mathlib.Analysis.SpecialFunctions.Sqrt
import Verif.FitOut.Types
/-
Specification of the results reported by gtlike, without reference to the code.
-/
namespace Verif.FitOut.Spec

/-- The parameters of a source model with the names of their sources. -/
def params (m : Mod) : List (List Char × Par) := m.flatMap (fun x => x.2.map (fun p => (x.1, p)))

/-- The free parameters of a source model. -/
def frees (m : Mod) : List (List Char × Par) := (params m).filter (fun x => x.2.free)

/-- The number of free parameters among the first `i`. -/
def rank (m : Mod) (i : Nat) : Nat := (((params m).take i).filter (fun x => x.2.free)).length

/-- The error of the `i`-th parameter of the model, if it is free: `es` has the errors of the
free parameters in order. -/
def errorOf (m : Mod) (es : List ℝ) (i : Nat) (x : List Char × Par) : Option ℝ :=
  if x.2.free then es[rank m i]? else none

/-- The lines show each parameter with its own error. -/
def Shows (m : Mod) (es : List ℝ) (lines : List Line) : Prop :=
  ∀ i, lines[i]? = ((params m)[i]?).map
    (fun x : List Char × Par => (⟨x.1, x.2.name, x.2.value, errorOf m es i x⟩ : Line))

/-- The parameters of `m'` are those of `m`, with the errors of the free ones replaced. -/
def Carries (m : Mod) (es : List ℝ) (m' : Mod) : Prop :=
  ∀ i, (params m')[i]? =
    ((params m)[i]?).map (fun x : List Char × Par =>
      (x.1, { x.2 with error := (errorOf m es i x).getD x.2.error }))

/-- The names of the sources differ, those of the parameters of a source differ and have no
colon. -/
def Named (m : Mod) : Prop :=
  (m.map Prod.fst).Nodup ∧ ∀ x ∈ m, (x.2.map (·.name)).Nodup ∧ ∀ p ∈ x.2, ':' ∉ p.name

/-- A square matrix. -/
def Square (n : Nat) (c : List (List ℝ)) : Prop := c.length = n ∧ ∀ row ∈ c, row.length = n

/-- An entry of a matrix. -/
def entry (c : List (List ℝ)) (i j : Nat) : ℝ := ((c[i]?.getD [])[j]?).getD 0

/-- The derivative of the flux of the source `src` with respect to the `i`-th free parameter of
the model: zero for the parameters of other sources. -/
def gradient (m : Mod) (src : List Char) (deriv : List Char → ℝ) (i : Nat) : ℝ :=
  match (frees m)[i]? with
  | some x => if x.1 = src then deriv x.2.name else 0
  | none => 0

/-- The variance of the flux by propagation of errors, over all the free parameters. -/
def variance (m : Mod) (c : List (List ℝ)) (src : List Char) (deriv : List Char → ℝ) : ℝ :=
  ∑ i ∈ Finset.range (frees m).length, ∑ j ∈ Finset.range (frees m).length,
    gradient m src deriv i * entry c i j * gradient m src deriv j

/-- Whether a fit is poor in a bin: with counts if their significance is below 0.05, without
if more than two were expected. -/
def Poor (sig : ℝ → ℝ → ℝ) (counts mean : ℝ) : Prop :=
  (0 < counts ∧ sig counts mean < 0.05) ∨ (counts ≤ 0 ∧ 2 < mean)

end Verif.FitOut.Spec
