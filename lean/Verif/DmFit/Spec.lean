import Verif.DmFit.Types
import Mathlib.Tactic.Common
import Mathlib.Analysis.SpecialFunctions.Log.Basic
import Mathlib.Analysis.SpecialFunctions.Trigonometric.Basic
import Mathlib.Algebra.Order.Floor.Ring
import Mathlib.Analysis.Calculus.Deriv.Basic
import Verif.Basic

/-!
# What a dark-matter spectrum should be
-/

namespace Verif.DmFit.Spec

/-- The final states of the annihilation. -/
inductive State where
  | ee | mumu | tautau | bb | tt | gluons | ww | zz | cc | ss | uu | dd
  deriving DecidableEq, Repr

/-- The numbers of the channels as documented, from 1 on. -/
def channels : List State :=
  [.ee, .mumu, .tautau, .bb, .tt, .gluons, .ww, .zz, .cc, .ss, .uu, .dd]

/-- The order of the final states in the file. -/
def inFile : List State :=
  [.cc, .bb, .tt, .tautau, .ww, .zz, .mumu, .gluons, .ee, .ss, .uu, .dd]

/-- The masses of the simulations in the file. -/
noncomputable def masses : List ℝ :=
  [2, 4, 6, 8, 10, 25, 50, 80.3, 91.2, 100, 150, 176, 200, 250, 350, 500, 750, 1000, 1500, 2000,
    3000, 5000, 7000, 10000]

/-- A file with everything in it: one line of 250 numbers for each state and each mass. -/
def Regular (file : Lines) : Prop := 288 ≤ file.length ∧ ∀ r ∈ file, 250 ≤ r.length

/-- The number in bin `i` of the spectrum of the `k`-th mass for the `s`-th state of the file; beyond
the first and the last bin the spectrum goes on as a constant. -/
noncomputable def number (file : Lines) (s k : ℕ) (i : Int) : ℝ :=
  ((file[s * 24 + k]?.getD [])[(max 0 (min 249 i)).toNat]?).getD 0

/-- The place of an energy, in bins from the centre of the first one on; there are 25 bins to the
decade of energy over mass, from ten decades below. -/
noncomputable def place (m E : ℝ) : ℝ := 25 * (Real.log (E / m) / Real.log 10 + 10) - 1 / 2

/-- Linear interpolation between the integers. -/
noncomputable def lin (g : Int → ℝ) (u : ℝ) : ℝ :=
  g ⌊u⌋ + (g (⌊u⌋ + 1) - g ⌊u⌋) * (u - ⌊u⌋)

/-- `y` photons per energy (in GeV) are radiated at `E` by the annihilation of particles of mass `m`
into the `s`-th state: none above the mass and far below it, otherwise the numbers of the file,
interpolated along the spectrum and, in the square of the mass, between neighbouring masses. -/
def Photons (file : Lines) (s : ℕ) (m E y : ℝ) : Prop :=
  ((m ≤ E ∨ place m E < -1) ∧ y = 0) ∨
    (E < m ∧ -1 ≤ place m E ∧ ∃ k lo hi, masses[k]? = some lo ∧ masses[k + 1]? = some hi ∧
      lo ≤ m ∧ m < hi ∧
      ∃ p, p = (m ^ 2 - lo ^ 2) / (hi ^ 2 - lo ^ 2) ∧
        y = ((1 - p) * lin (number file s k) (place m E)
          + p * lin (number file s (k + 1)) (place m E)) / E)

/-- The place in the file of the channel with number `c`. -/
def placeOf (c : Int) (s : ℕ) : Prop :=
  ∃ x, 1 ≤ c ∧ channels[(c - 1).toNat]? = some x ∧ inFile[s]? = some x

/-- The flux at `E` MeV: photons per energy of the two channels, times the norm and the cross section
over eight pi times the square of the mass, per MeV. -/
noncomputable def flux (f : Fn) (y0 y1 : ℝ) : ℝ :=
  f.norm.eff * f.sigmav.eff / (8 * Real.pi * f.mass.eff ^ 2)
    * (f.bratio.eff * y0 + (1 - f.bratio.eff) * y1) / 1000

/-- `y` is the flux of a spectrum at `E` MeV. -/
def IsFlux (file : Lines) (f : Fn) (E y : ℝ) : Prop :=
  ∃ s0 s1 y0 y1, placeOf f.channel0 s0 ∧ placeOf f.channel1 s1 ∧
    Photons file s0 f.mass.eff (E / 1000) y0 ∧ Photons file s1 f.mass.eff (E / 1000) y1 ∧
    y = flux f y0 y1

/-- `g` is the derivative at `t` of what a call returns, as a function of a number it is given. -/
def IsGrad (v : ℝ → Res ℝ) (t g : ℝ) : Prop :=
  ∃ F : ℝ → ℝ, (∀ᶠ u in nhds t, v u = .ok (F u)) ∧ HasDerivAt F g t

/-- The spectrum with another value of a parameter. -/
def withValue (f : Fn) (w : Which) (u : ℝ) : Fn :=
  match w with
  | .norm => { f with norm := { f.norm with value := u } }
  | .sigmav => { f with sigmav := { f.sigmav with value := u } }
  | .mass => { f with mass := { f.mass with value := u } }
  | .bratio => { f with bratio := { f.bratio with value := u } }
  | _ => f

/-- A file with the same number everywhere. -/
def flat (c : ℝ) : Lines := List.replicate 288 (List.replicate 250 c)

end Verif.DmFit.Spec
