import Mathlib.Analysis.SpecialFunctions.Log.Basic
import Verif.Basic
import Verif.PsfApp.Types
/-
Model of gtpsf, src/meanPsf/meanPsf.cxx.  The PSF and the exposure averaged over an observation are
given as functions (see Verif.MeanPsf for them).
-/
namespace Verif.PsfApp

/-- `computeEnergies`, meanPsf.cxx:102-112.  `reserve` throws for a negative number; the step is a
quotient by `nee - 1`. -/
noncomputable def energies (emin emax : ℝ) (nee : Int) : Res (List ℝ) :=
  if emin = 0 ∨ nee = 1 ∨ emax / emin ≤ 0 then .ub
  else if nee < 0 then .throws
  else
    let estep := Real.log (emax / emin) / ((nee : ℝ) - 1)
    .ok ((List.range nee.toNat).map fun i : Nat => emin * Real.exp (estep * i))

/-- `computeThetas`, meanPsf.cxx:114-123.  The squares are computed in `int`. -/
noncomputable def thetas (thetaMax : ℝ) (nth : Int) : Res (List ℝ) :=
  if nth < 0 then .throws
  else if 2147483647 < nth * nth then .ub
  else .ok ((List.range nth.toNat).map fun i => ((i * i : Nat) : ℝ) / ((nth * nth : Int) : ℝ) * thetaMax)

/-- The rows, meanPsf.cxx:149-158. -/
def rows (x : List ℝ) (psf : ℝ → ℝ → ℝ) (th : List ℝ) : List ℝ → Nat → Res (List Row)
  | [], _ => .ok []
  | e :: es, k =>
    match x[k]? with
    | none => .throws
    | some v => do
      let l ← rows x psf th es (k + 1)
      .ok (⟨e, v, th.map fun t => psf e t⟩ :: l)

/-- `writeFitsFile`, meanPsf.cxx:125-177: the file there is, if any, and what is there afterwards.
A file that could not be completed is counted as one without rows. -/
def write (clobber : Bool) (x : List ℝ) (psf : ℝ → ℝ → ℝ) (es th : List ℝ) (old : Option File) : Option File × Res Unit :=
  if old.isSome = true ∧ clobber = false then (old, .throws)
  else
    match rows x psf th es 0 with
    | .ok r => (some ⟨r, th⟩, .ok ())
    | .throws => (some ⟨[], []⟩, .throws)
    | .ub => (some ⟨[], []⟩, .ub)

/-- `run`, meanPsf.cxx:75-100. -/
noncomputable def run (p : Pars) (x : List ℝ → List ℝ) (psf : List ℝ → ℝ → ℝ → ℝ) (old : Option File) : Option File × Res Unit :=
  if p.cubeNone then (old, .throws)
  else if p.irfsCaldb then (old, .throws)
  else
    match energies p.emin p.emax p.nenergies, thetas p.thetamax p.ntheta with
    | .ok es, .ok th => write p.clobber (x es) (psf es) es th old
    | .ok _, .ub => (old, .ub)
    | .ok _, .throws => (old, .throws)
    | .ub, _ => (old, .ub)
    | .throws, _ => (old, .throws)

end Verif.PsfApp
