import Verif.SumScan.Types
import Verif.FitMerge.Model
import Mathlib.Tactic.Common

/-!
# Scans of a sum of likelihoods: the code

`FitScanModelWrapper_Summed::extractModels`, src/FitScanner.cxx:747-832.  What the caches of the
components hold (`FitUtils::extractModels` for each of them) is given.
-/

namespace Verif.SumScan

variable {N : Type}

/-- The vectors of one component, as `mergeVectors` sees them. -/
def asComp (p : Part N) (v : List ℝ) : FitMerge.Comp := ⟨p.edges, p.npix, v⟩

/-- `mergeVectors(toMerge, m_nPixelsByComp, m_energyBinLocal, out)` with `out` filled with zeros,
FitScanner.cxx:800-819.  The loop over the components reads `toMerge[j]` for each of them (all have at least
one bin). -/
def mergeAll (ps : List (Part N)) (rows : List (List Int)) (size : Nat) (vs : List (List ℝ)) :
    Res (List ℝ) :=
  if vs.length < ps.length then .ub
  else FitMerge.mergeVectors (List.zipWith asComp ps vs) rows (List.replicate size 0)

/-- `templatesToMerge[j].push_back(ptr)` for all templates of a component,
FitScanner.cxx:794-797. -/
def push : List (List (List ℝ)) → List (List ℝ) → Res (List (List (List ℝ)))
  | cols, [] => .ok cols
  | [], _ :: _ => .ub
  | c :: cols, t :: ts => do
    let r ← push cols ts
    .ok ((c ++ [t]) :: r)

/-- The loop over the components, FitScanner.cxx:768-798, after the first one. -/
def pushAll : List (Part N) → List (List (List ℝ)) → Res (List (List (List ℝ)))
  | [], cols => .ok cols
  | p :: ps, cols => do
    let c ← push cols p.templates
    pushAll ps c

/-- `refPars.resize(cache->refValues().size())` in each turn, FitScanner.cxx:781; the values are
those of the first component, 790. -/
def refPars (p : Part N) (ps : List (Part N)) : List ℝ :=
  ps.foldl (fun r q => r.take q.refs.length ++ List.replicate (q.refs.length - r.length) 0) p.refs

/-- The weights, if they are asked for, FitScanner.cxx:807-811. -/
def mergeWeights (useWeights : Bool) (ps : List (Part N)) (rows : List (List Int)) (size : Nat) :
    Res (Option (List ℝ)) :=
  if useWeights then do
    let w ← mergeAll ps rows size (ps.map Part.weights)
    .ok (some w)
  else .ok none

/-- `extractModels`, FitScanner.cxx:747-832, given the energy bins of the constructor. -/
def extractModels (useWeights : Bool) (ps : List (Part N)) (rows : List (List Int)) (size : Nat) :
    Res (Scan N) :=
  match ps with
  | [] => .throws
  | p :: qs => do
    let cols ← pushAll ps (List.replicate p.templates.length [])
    let fixed ← mergeAll ps rows size (ps.map Part.fixed)
    let test ← mergeAll ps rows size (ps.map Part.test)
    let weights ← mergeWeights useWeights ps rows size
    let templates ← cols.mapM (mergeAll ps rows size)
    .ok ⟨p.names, templates, refPars p qs, fixed, test, weights⟩

/-- The counts, the number of bins and the models of a sum: the constructor, 648-718, and
`extractModels`. -/
noncomputable def setup (useWeights : Bool) (ps : List (Part N)) :
    Res (FitMerge.Merged × Scan N) := do
  let m ← FitMerge.new (ps.map fun p => asComp p p.data)
  let x ← extractModels useWeights ps m.rows m.data.length
  .ok (m, x)

end Verif.SumScan
