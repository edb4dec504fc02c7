import Verif.Basic
import Verif.ScanRef.Types
import Mathlib.Analysis.SpecialFunctions.Sqrt
/-
The reference values of a scan: `FitScanModelWrapper::cacheFluxValues` and the table of the energy
bins.

Simplifications.  Real numbers for doubles.  The functions of the source are given and do not throw,
apart from `computeExposure`.  The units in the header are in `Verif.ScanFile`.
-/
namespace Verif.ScanRef
open Verif

/-- `m_ref_energies`, `m_ref_dndes`, `m_ref_fluxes`, `m_ref_energy_fluxes`, `m_nPreds`, FitScanner.h. -/
structure Refs where
  energies : List ℝ
  dndes : List ℝ
  fluxes : List ℝ
  efluxes : List ℝ
  npreds : List ℝ

/-- Of a new scanner. -/
def Refs.empty : Refs := ⟨[], [], [], [], []⟩

/-- The five `resize`, FitScanner.cxx:408-412. -/
noncomputable def Refs.resize (r : Refs) (n : Nat) : Refs :=
  ⟨vresize r.energies n 0, vresize r.dndes n 0, vresize r.fluxes n 0, vresize r.efluxes n 0, vresize r.npreds n 0⟩

/-- One energy bin, FitScanner.cxx:420-425. -/
noncomputable def bin (s : Src) (es : List ℝ) (i : Nat) (r : Refs) : Res Refs := do
  let emin ← vget es i
  let emax ← vget es (i + 1)
  let a ← vset r.energies i (Real.sqrt (emin * emax))
  let b ← vset r.fluxes i (s.flux emin emax)
  let c ← vset r.efluxes i (s.eflux emin emax)
  let d ← vset r.npreds i (s.npred emin emax)
  .ok ⟨a, r.dndes, b, c, d⟩

/-- `extractSpectralVals`, FitUtils.cxx:1223-1235. -/
def spectralVals (s : Src) (energies : List ℝ) : List ℝ := energies.map s.dnde

/-- `cacheFluxValues`, FitScanner.cxx:406-428; `n` is the number of bins. -/
noncomputable def cache (s : Src) (es : List ℝ) (n : Nat) (r : Refs) : Res Refs :=
  if s.exposed then do
    let r ← loop (bin s es) 0 n (r.resize n)
    .ok { r with dndes := spectralVals s r.energies }
  else .ok (r.resize n)

/-- One row of the table, FitScanner.cxx:442-450 and 488-494. -/
noncomputable def rowOf (es : List ℝ) (r : Refs) (i : Nat) : Res Row := do
  let lo ← vget es i
  let hi ← vget es (i + 1)
  let e ← vget r.energies i
  let d ← vget r.dndes i
  let f ← vget r.fluxes i
  let g ← vget r.efluxes i
  let p ← vget r.npreds i
  .ok ⟨i + 1, 1000 * lo, 1000 * hi, e, d, f, g, p⟩

/-- `writeFits_EnergyBins` and `writeFits_FluxTable`, FitScanner.cxx:430-496. -/
noncomputable def table (es : List ℝ) (n : Nat) (r : Refs) : Res (List Row) :=
  (List.range n).mapM (rowOf es r)

/-- Test sources are cached one after the other, FitScanner.cxx:3093-3118. -/
noncomputable def history (es : List ℝ) (n : Nat) : List Src → Refs → Res Refs
  | [], r => .ok r
  | s :: l, r => do
    let r ← cache s es n r
    history es n l r

end Verif.ScanRef
