import Mathlib.Analysis.SpecialFunctions.Log.Base
import Mathlib.Analysis.SpecialFunctions.Pow.Real
import Verif.Basic
import Verif.Xml.Types
/-
Model of src/FluxBuilder.cxx: the file with one power law per source that is made for the flux
simulator.
-/
namespace Verif.FluxFile
open Verif.Xml (Node)

/-- What the builder asks of a source: the name, the spectrum as a function of the energy (which
may throw), and the position if it is a point source. -/
structure Source where
  name : String
  spectrum : ℝ → Res ℝ
  position : Option (ℝ × ℝ)

/-- `nsteps`, FluxBuilder.cxx:125. -/
def nsteps : ℕ := 100

/-- `pow(10., logEmin + i*dlogE)`, FluxBuilder.cxx:126-132. -/
noncomputable def energy (emin emax : ℝ) (i : ℕ) : ℝ :=
  (10 : ℝ) ^ (Real.logb 10 emin + i * ((Real.logb 10 emax - Real.logb 10 emin) / nsteps))

/-- The loop over the steps, FluxBuilder.cxx:130-138. -/
noncomputable def sumSteps (f : ℝ → Res ℝ) (emin emax : ℝ) : ℕ → Res ℝ
  | 0 => .ok 0
  | n + 1 => do
    let s ← sumSteps f emin emax n
    let f1 ← f (energy emin emax n)
    let f2 ← f (energy emin emax (n + 1))
    pure (s + 1 / 2 * (f1 + f2) * (energy emin emax (n + 1) - energy emin emax n))

/-- The number given as the flux, FluxBuilder.cxx:122-142: 1 if anything is thrown. -/
noncomputable def flux (f : ℝ → Res ℝ) (emin emax : ℝ) : Res ℝ :=
  match sumSteps f emin emax nsteps with
  | .ok s => .ok s
  | .throws => .ok 1
  | .ub => .ub

/-- The spectrum element, FluxBuilder.cxx:145-164. -/
def spectrumNode (fmt : ℝ → String) (emin emax : ℝ) : Node :=
  .mk "spectrum" [("escale", "MeV"), ("type", "PowerLaw")]
    [.mk "particle" [("name", "gamma"), ("value", fmt 2)] [],
     .mk "particle" [("name", "emin"), ("value", fmt emin)] [],
     .mk "particle" [("name", "emax"), ("value", fmt emax)] []]

/-- `addSource`, FluxBuilder.cxx:116-176. -/
noncomputable def sourceNode (fmt : ℝ → String) (emin emax : ℝ) (s : Source) : Res Node := do
  let fl ← flux s.spectrum emin emax
  pure (.mk "source" [("name", s.name), ("type", s.name), ("flux", fmt fl)]
    (spectrumNode fmt emin emax ::
      match s.position with
      | some p => [.mk "celestial_dir" [("ra", fmt p.1), ("dec", fmt p.2)] []]
      | none => []))

end Verif.FluxFile
