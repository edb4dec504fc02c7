import Verif.Basic
import Verif.FitMerge.Types
/-
Model of scans of several components: `FitScanModelWrapper_Summed` in src/FitScanner.cxx.  Floating point
numbers are real numbers.
-/
namespace Verif.FitMerge

/-- The lowest of the current energies, FitScanner.cxx:590-602; nothing if all components are at their
end. -/
noncomputable def lowest : List (List ℝ × Nat) → Option ℝ → Option ℝ
  | [], acc => acc
  | (b, i) :: ps, acc =>
    match b[i]? with
    | none => lowest ps acc
    | some v => open Classical in lowest ps (if v < acc.getD 1e32 then some v else acc)

/-- One component in the second loop, FitScanner.cxx:605-615: the number of its bin and its new index. -/
noncomputable def advance (tol low : ℝ) (b : List ℝ) (i : Nat) : Int × Nat :=
  match b[i]? with
  | none => (-1, i)
  | some v => open Classical in
    if |low - v| < tol then ((if i + 1 < b.length then (i : Int) else -1), i + 1) else (-1, i)

/-- The loop over energies, FitScanner.cxx:680-691, with `findMinAndMatches`, lines 585-617.  It ends
when there is no energy left, or with a negative one.  The first argument bounds the number of steps; not to end
is undefined behaviour. -/
noncomputable def energyLoop (tol : ℝ) (bins : List (List ℝ)) : Nat → List Nat → Res (List (ℝ × List Int))
  | 0, _ => .ub
  | n + 1, idx =>
    match lowest (bins.zip idx) none with
    | none => .ok []
    | some low =>
      let next := (bins.zip idx).map fun p => advance tol low p.1 p.2
      open Classical in
      if low < 0 then .ok []
      else do
        let rest ← energyLoop tol bins n (next.map Prod.snd)
        if 0 < low then .ok ((low, next.map Prod.fst) :: rest) else .ok rest

/-- One component of one energy in `mergeVectors`, FitScanner.cxx:630-643; the state is the output and the
place to write to. -/
def mergeCell (c : Comp) (k : Int) (st : List ℝ × Nat) : Res (List ℝ × Nat) :=
  if k < 0 then .ok st
  else if k.toNat * c.npix + c.npix ≤ c.data.length ∧ st.2 + c.npix ≤ st.1.length then
    .ok (st.1.take st.2 ++ (c.data.drop (k.toNat * c.npix)).take c.npix ++ st.1.drop (st.2 + c.npix), st.2 + c.npix)
  else .ub

/-- The loop over components, FitScanner.cxx:629-644. -/
def mergeRow : List Comp → List Int → List ℝ × Nat → Res (List ℝ × Nat)
  | c :: cs, k :: ks, st => do
    let st' ← mergeCell c k st
    mergeRow cs ks st'
  | _, _, st => .ok st

/-- The loop over energies, FitScanner.cxx:627-645. -/
def mergeRows (cs : List Comp) : List (List Int) → List ℝ × Nat → Res (List ℝ × Nat)
  | [], st => .ok st
  | r :: rs, st => do
    let st' ← mergeRow cs r st
    mergeRows cs rs st'

/-- `mergeVectors`, FitScanner.cxx:619-646: the last energy is not the beginning of a bin. -/
def mergeVectors (cs : List Comp) (rows : List (List Int)) (out : List ℝ) : Res (List ℝ) := do
  let st ← mergeRows cs rows.dropLast (out, 0)
  .ok st.1

/-- The default tolerance, FitScanner.h:631. -/
noncomputable def defaultTol : ℝ := 1e-5

/-- The number of pixels of a layer, FitScanner.cxx:694-703. -/
def layerPixels (cs : List Comp) (row : List Int) : Nat :=
  ((cs.zip row).map fun p => if p.2 < 0 then 0 else p.1.npix).sum

/-- The constructor, FitScanner.cxx:648-718: without energies the size of a vector is taken from an unsigned
number that has wrapped around. -/
noncomputable def new (cs : List Comp) : Res Merged := do
  let rows ← energyLoop defaultTol (cs.map Comp.edges) ((cs.map fun c => c.edges.length).sum + 1)
    (cs.map fun _ => 0)
  if rows = [] then .throws
  else do
    let size := (cs.map fun c => c.npix * (c.edges.length - 1)).sum
    let data ← mergeVectors cs (rows.map Prod.snd) (List.replicate size 0)
    .ok ⟨rows.map Prod.fst, rows.map Prod.snd, (rows.map Prod.snd).dropLast.map (layerPixels cs), rows.length - 1, data⟩

/-- The limits of one component in `set_klims`, FitScanner.cxx:908-914; both come from `kmin`. -/
def klimsOf (rows : List (List Int)) (kmin i : Nat) : Res (Nat × Nat) := do
  let r ← vget rows kmin
  let a ← vget r i
  let b ← vget r i
  if a < 0 ∨ b < 0 then .ok (0, 0) else .ok (a.toNat, b.toNat)

/-- `set_klims`, FitScanner.cxx:904-916: the limits each component gets. -/
def setKlims (m : Merged) (ncomp kmin _kmax : Nat) : Res (List (Nat × Nat)) :=
  (List.range ncomp).mapM (klimsOf m.rows kmin)

end Verif.FitMerge
