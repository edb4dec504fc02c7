import Mathlib.Analysis.SpecialFunctions.Sqrt
import Mathlib.Analysis.SpecialFunctions.Log.Basic
import Verif.Basic
import Verif.FitOut.Types
/-
Model of the results reported by gtlike, src/likelihood/likelihood.cxx: errors of the
parameters, errors of the fluxes and the check of the quality of the fit.

The optimizer, the fluxes and their derivatives and the Poisson significance are inputs.
`std::map<std::string, int>` is a list of pairs, as only the number of entries and the
values of keys matter.  The order of the parameters is that of the source model, which is
the order of the names of the sources (SourceModel.cxx:402-412).
-/
namespace Verif.FitOut

open Verif

/-! ### errors of the parameters -/

/-- The parameters of the source model, SourceModel.cxx:402-412. -/
def allPars (m : Mod) : List Par := m.flatMap (fun x => x.2)

/-- The loop over the free parameters, likelihood.cxx:327-329, and `setFreeParams`,
SourceModel.cxx:376-400: the free parameters of a spectrum take the next errors.  `setParam`
finds the parameter by its name, which is that of one parameter of the spectrum. -/
def setParErrs : List Par → List ℝ → List Par × List ℝ
  | [], es => ([], es)
  | p :: ps, es =>
    if p.free then
      match es with
      | [] => (p :: ps, [])
      | e :: es =>
        let r := setParErrs ps es
        ({ p with error := e } :: r.1, r.2)
    else
      let r := setParErrs ps es
      (p :: r.1, r.2)

/-- `setFreeParams` over the sources, SourceModel.cxx:389-398. -/
def setModErrs : Mod → List ℝ → Mod
  | [], _ => []
  | (n, ps) :: m, es =>
    let r := setParErrs ps es
    (n, r.1) :: setModErrs m r.2

/-- `setErrors`, likelihood.cxx:320-331. -/
def setErrors (m : Mod) (es : List ℝ) : Res Mod :=
  if es.length ≠ ((allPars m).filter (·.free)).length then .throws
  else .ok (setModErrs m es)

/-- The loop over the parameters of a source in `printFitResults`, likelihood.cxx:691-704;
the list is what `errIt` has still to go through. -/
def printPars (src : List Char) : List Par → List ℝ → List Line × List ℝ
  | [], es => ([], es)
  | p :: ps, es =>
    if p.free then
      match es with
      | [] =>
        let r := printPars src ps []
        (⟨src, p.name, p.value, none⟩ :: r.1, r.2)
      | e :: es =>
        let r := printPars src ps es
        (⟨src, p.name, p.value, some e⟩ :: r.1, r.2)
    else
      let r := printPars src ps es
      (⟨src, p.name, p.value, none⟩ :: r.1, r.2)

/-- The loop over the sources in `printFitResults`, likelihood.cxx:685-733. -/
def printMod : Mod → List ℝ → List Line
  | [], _ => []
  | (n, ps) :: m, es =>
    let r := printPars n ps es
    r.1 ++ printMod m r.2

/-- The state kept between the turns of the fit loop: the vector `errors`, which is
declared before the loop (likelihood.cxx:271), the model, the covariance matrix and the
results. -/
structure St where
  errors : List ℝ
  mod : Mod
  cov : List (List ℝ)
  lines : List Line

/-- The fit and its errors, likelihood.cxx:284-300. -/
def fitErrors (errors : List ℝ) (r : Round) : Res (List ℝ × Mod) :=
  match r.fitted, r.unc with
  | true, some es => do
    let m ← setErrors r.mod es
    .ok (es, m)
  | _, _ => .ok (errors, r.mod)

/-- One turn of the fit loop, likelihood.cxx:279-308. -/
def turn (st : St) (r : Round) : Res St := do
  let q ← fitErrors st.errors r
  .ok ⟨q.1, q.2, r.cov.getD [], printMod q.2 q.1⟩

/-- The fit loop, likelihood.cxx:278-312. -/
def turns : List Round → St → Res St
  | [], st => .ok st
  | r :: rs, st => do
    let st' ← turn st r
    turns rs st'

/-- The state before the fit loop. -/
def start : St := ⟨[], [], [], []⟩

/-! ### errors of the fluxes -/

/-- The key of a parameter, likelihood.cxx:611, 625. -/
def key (src par : List Char) : List Char := src ++ [':', ':'] ++ par

/-- `par_index_map[k] = i`. -/
def store (mp : List (List Char × Nat)) (k : List Char) (i : Nat) : List (List Char × Nat) :=
  if k ∈ mp.map Prod.fst then mp.map (fun x => if x.1 = k then (k, i) else x)
  else mp ++ [(k, i)]

/-- `par_index_map[k]`, which is 0 for a new key. -/
def fetch (mp : List (List Char × Nat)) (k : List Char) : Nat :=
  match mp.find? (fun x => x.1 = k) with
  | some x => x.2
  | none => 0

/-- `getFreeParamNames` of a spectrum. -/
def freeNames (ps : List Par) : List (List Char) := (ps.filter (·.free)).map (·.name)

/-- The loop over the free parameters of a source, likelihood.cxx:610-613; the pair is the
map and the index. -/
def indexPars (src : List Char) : List (List Char) → List (List Char × Nat) × Nat →
    List (List Char × Nat) × Nat
  | [], a => a
  | p :: ps, a => indexPars src ps (store a.1 (key src p) a.2, a.2 + 1)

/-- The loop over the sources, likelihood.cxx:606-614. -/
def indexMod : Mod → List (List Char × Nat) × Nat → List (List Char × Nat) × Nat
  | [], a => a
  | (n, ps) :: m, a => indexMod m (indexPars n (freeNames ps) a)

/-- A cell of the covariance matrix, `at(i).at(j)`. -/
def cell (c : List (List ℝ)) (i j : Nat) : Res ℝ :=
  match c[i]? with
  | none => .throws
  | some row =>
    match row[j]? with
    | none => .throws
    | some x => .ok x

/-- `mapM` for lists of results. -/
def each {α β : Type} (f : α → Res β) : List α → Res (List β)
  | [] => .ok []
  | a :: as => do
    let b ← f a
    let bs ← each f as
    .ok (b :: bs)

/-- The covariance matrix of the parameters of the source, likelihood.cxx:627-634. -/
def subCov (c : List (List ℝ)) (mp : List (List Char × Nat)) (pars : List (List Char)) :
    Res (List (List ℝ)) :=
  each (fun p => each (fun q => cell c (fetch mp p) (fetch mp q)) pars) pars

/-- The product of a row and the vector of derivatives, likelihood.cxx:642-645. -/
def dot : List ℝ → List ℝ → ℝ
  | a :: as, b :: bs => a * b + dot as bs
  | _, _ => 0

/-- The square of the error of the flux, likelihood.cxx:640-651. -/
def quad (c : List (List ℝ)) (g : List ℝ) : ℝ := dot g (c.map (fun row => dot row g))

/-- `sourceFlux`: the error, likelihood.cxx:589-654.  `deriv` is `fluxDeriv` of the source
with respect to a parameter.  For a negative square the code gets a value that is not a
number, `√` gives 0; in both cases no error is shown (likelihood.cxx:726). -/
noncomputable def fluxError (m : Mod) (c : List (List ℝ)) (src : List Char) (ps : List Par)
    (deriv : List Char → ℝ) : Res ℝ :=
  if (freeNames ps).length = 0 ∨ c = [] then .ok 0
  else
    let mp := (indexMod m ([], 0)).1
    if c.length ≠ mp.length then .throws
    else do
      let sub ← subCov c mp ((freeNames ps).map (key src))
      .ok (Real.sqrt (quad sub ((freeNames ps).map deriv)))

/-! ### the quality of the fit -/

/-- The loop of `gser` with the number of turns left, MathUtil.cxx:44-53: the sum, or `none`
for the exception. -/
noncomputable def gserLoop (x : ℝ) : Nat → (ap del sum : ℝ) → Option ℝ
  | 0, _, _, _ => none
  | n + 1, ap, del, sum =>
    open Classical in
    if |del * (x / (ap + 1))| < |sum + del * (x / (ap + 1))| * 3.0e-7 then
      some (sum + del * (x / (ap + 1)))
    else gserLoop x n (ap + 1) (del * (x / (ap + 1))) (sum + del * (x / (ap + 1)))

/-- `gser`, MathUtil.cxx:32-56, for `x` not negative, which `gammq` sees to; `gln` is
`gammln`. -/
noncomputable def gser (gln : ℝ → ℝ) (a x : ℝ) : Option ℝ :=
  open Classical in
  if x ≤ 0 then some 0
  else (gserLoop x 10000 a (1 / a) (1 / a)).map
    (fun sum => sum * Real.exp (-x + a * Real.log x - gln a))

/-- `gammq`, MathUtil.cxx:85-97; `gcf` is the continued fraction. -/
noncomputable def gammq (gln : ℝ → ℝ) (gcf : ℝ → ℝ → ℝ) (a x : ℝ) : Option ℝ :=
  open Classical in
  if x < 0 ∨ a ≤ 0 then some 0
  else if x < a + 1 then (gser gln a x).map (fun y => 1 - y)
  else some (gcf a x)

/-- `poissonSig`, MathUtil.cxx:99-112. -/
noncomputable def poissonSig (gln : ℝ → ℝ) (gcf : ℝ → ℝ → ℝ) (x mean : ℝ) : Option ℝ :=
  open Classical in
  if mean < x then do
    let p ← gammq gln gcf x mean
    let q ← gammq gln gcf x (2 * x - mean)
    some ((1 - p) + q)
  else if 0 < 2 * x - mean then do
    let p ← gammq gln gcf x mean
    let q ← gammq gln gcf x (2 * x - mean)
    some (p + (1 - q))
  else gammq gln gcf x mean

/-- The significance and the threshold of a bin, likelihood.cxx:795-810; `sig` is
`poissonSig`, which may throw. -/
noncomputable def judge (sig : ℝ → ℝ → Option ℝ) (counts mean : ℝ) : Res (ℝ × ℝ) :=
  open Classical in
  if 0 < counts then
    match sig counts mean with
    | some s => .ok (s, 0.05)
    | none => .throws
  else if 0 < mean then .ok (1 / mean, 0.5)
  else .ok (1, 0.05)

/-- The bins with a significance below the threshold, likelihood.cxx:794-811, 815. -/
noncomputable def judgeAll (sig : ℝ → ℝ → Option ℝ) : List ℝ → List ℝ → Res (List Bool)
  | c :: cs, x :: xs => do
    let r ← judge sig c x
    let bs ← judgeAll sig cs xs
    .ok ((open Classical in decide (r.1 < r.2)) :: bs)
  | _, [] => .ok []
  | [], _ :: _ => .ub

/-- The loop that prints the ranges, likelihood.cxx:813-829: `k` is the bin, the option the
lower limit of a range that is not closed yet. -/
def ranges (ebounds : List ℝ) : List Bool → Nat → Option ℝ → Res (List (ℝ × ℝ))
  | [], _, none => .ok []
  | [], k, some lo =>
    match ebounds[k]? with
    | some hi => .ok [(lo, hi)]
    | none => .throws
  | true :: bs, k, none =>
    match ebounds[k]? with
    | some lo => ranges ebounds bs (k + 1) (some lo)
    | none => .throws
  | true :: bs, k, some lo => ranges ebounds bs (k + 1) (some lo)
  | false :: bs, k, none => ranges ebounds bs (k + 1) none
  | false :: bs, k, some lo =>
    match ebounds[k]? with
    | some hi => do
      let r ← ranges ebounds bs (k + 1) none
      .ok ((lo, hi) :: r)
    | none => .throws

/-- `printFitQuality`, likelihood.cxx:772-834: the ranges of energies printed; an exception
is caught and reported (likelihood.cxx:831-833). -/
noncomputable def quality (sig : ℝ → ℝ → Option ℝ) (ebounds counts mean : List ℝ) :
    Res (List (ℝ × ℝ)) :=
  match judgeAll sig counts mean with
  | .ok bs =>
    match ranges ebounds bs 0 none with
    | .ok r => .ok r
    | .throws => .ok []
    | .ub => .ub
  | .throws => .ok []
  | .ub => .ub

end Verif.FitOut
