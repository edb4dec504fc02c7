import Verif.Basic
import Verif.SrcMap.Types2
/-
The spectral side of a source map: values of the spectrum, their derivatives, and the
parameters they were computed with.
-/
namespace Verif.SrcMap.Spectrum

/-- The spectrum of the source at the energies of the map, as a function of its
parameters, and its derivatives with respect to named ones. -/
structure Env where
  spec : List ℝ → List ℝ
  deriv : List Nat → List ℝ → List (List ℝ)

/-- Fields of `SourceMap` (SourceMap.h:486-505), and the parameters the source has. -/
structure St where
  /-- the parameter values of the source -/
  cur : List ℝ
  /-- `m_specVals` -/
  vals : List ℝ
  /-- `m_modelPars` -/
  pars : List ℝ
  /-- `m_latchedModelPars` -/
  latched : List ℝ
  /-- `m_derivs` -/
  derivs : List (List ℝ)

/-- `setSpectralValues`, SourceMap.cxx:405-415. -/
def setValues (e : Env) (st : St) (latch : Bool) : St :=
  { st with
    vals := e.spec st.cur
    pars := st.cur
    latched := if latch then st.cur else st.latched }

/-- `setSpectralDerivs`, SourceMap.cxx:417-420. -/
def setDerivs (e : Env) (st : St) (names : List Nat) : St :=
  { st with derivs := e.deriv names st.cur }

/-- `specVals`, SourceMap.cxx:463-469. -/
def specVals (e : Env) (st : St) (force latch : Bool) : St :=
  if st.vals = [] ∨ force = true then setValues e st latch else st

/-- `specDerivs`, SourceMap.cxx:478-483: it is the values that are asked for, not the
derivatives. -/
def specDerivs (e : Env) (st : St) (names : List Nat) (force : Bool) : St :=
  if st.vals = [] ∨ force = true then setDerivs e st names else st

/-- The part of `readModel` and `make_model` (SourceMap.cxx:602-607, 632, 701-706, 736):
everything is cleared, the values are computed. -/
def load (e : Env) (st : St) : St :=
  setValues e { st with vals := [], pars := [], derivs := [] } false

/-- The part of `resetSourceData`, SourceMap.cxx:868-871. -/
def reset (st : St) : St := { st with vals := [], pars := [], derivs := [] }

/-- `spectrum_changed`, SourceMap.cxx:432-445: the lengths, then the values one by one. -/
noncomputable def changed (st : St) : Bool :=
  open Classical in
  if st.cur.length ≠ st.latched.length then true
  else (List.zip st.cur st.latched).any fun p => decide (p.1 ≠ p.2)

/-- One event. -/
def step (e : Env) (st : St) : Op → St
  | .setPars v => { st with cur := v }
  | .setValues l => setValues e st l
  | .setDerivs ns => setDerivs e st ns
  | .specVals f l => specVals e st f l
  | .specDerivs ns f => specDerivs e st ns f
  | .load => load e st
  | .reset => reset st

/-- A sequence of events. -/
def run (e : Env) (st : St) (ops : List Op) : St := ops.foldl (step e) st

/-- A new map: it was read or made, SourceMap.cxx:76-143. -/
def fresh (e : Env) (v : List ℝ) : St := load e ⟨v, [], [], [], []⟩

end Verif.SrcMap.Spectrum
