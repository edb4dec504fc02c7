import Verif.MatVec.Types
import Mathlib.Algebra.Order.Floor.Semiring
import Mathlib.Algebra.Order.Archimedean.Real.Basic
import Mathlib.Analysis.SpecialFunctions.Log.Basic
/-
Model of the matrices and vectors of FitUtils.cxx.
-/
namespace Verif.MatVec
open Vec

/-! ### Conversions -/

/-- Writing the element `(i, j)` of a symmetric matrix (CLHEP): the same place as `(j, i)`. -/
def Sym.set (m : Sym) (i j : Nat) (v : ℝ) : Sym :=
  { m with low := fun a b => if a = max i j ∧ b = min i j then v else m.low a b }

/-- `Matrix_Hep_to_Stl`, FitUtils.cxx:209-219. -/
def symToStl (m : Sym) : List ℝ :=
  ((List.range m.n).map (fun i => (List.range m.n).map (fun j => m.get i j))).flatten

/-- The number of rows, FitUtils.cxx:231-232. -/
noncomputable def rows (size : Nat) : Nat :=
  let r := ⌊Real.sqrt (size : ℝ) + 1 / 2⌋₊
  if r * r < size then r + 1 else r

/-- `Matrix_Stl_to_Hep`, FitUtils.cxx:229-241. -/
noncomputable def stlToSym (stl : List ℝ) : Res Sym :=
  let n := rows stl.length
  loop (fun i m => loop (fun j m => do
    let v ← vget stl (i * n + j)
    .ok (m.set i j v)) 0 n m) 0 n ⟨n, fun _ _ => 0⟩

/-- `reshapeVector`, FitUtils.cxx:486-502. -/
def reshape (v : List ℝ) (ni nj : Nat) : Res (List (List ℝ)) :=
  if v.length ≠ ni * nj then .throws
  else .ok ((List.range ni).map (fun i => (List.range nj).map (fun j => val v (i * nj + j))))

/-! ### Elementwise operations -/

/-- `vectorMultiply`, FitUtils.cxx:291-313. -/
noncomputable def vectorMultiply (a b out : List ℝ) : Res (List ℝ) :=
  if a.length ≠ b.length ∨ a.length ≠ out.length then .throws else .ok (List.zipWith (fun x y => x * y) a b)

/-- `vectorSubtract`, FitUtils.cxx:315-337. -/
noncomputable def vectorSubtract (a b out : List ℝ) : Res (List ℝ) :=
  if a.length ≠ b.length ∨ a.length ≠ out.length then .throws else .ok (List.zipWith (fun x y => x - y) a b)

/-- `symmetricError`, FitUtils.cxx:504-506. -/
noncomputable def symmetricError (pos neg : ℝ) : ℝ := open Classical in if neg < 0 then pos else (pos + neg) / 2

/-- The loop over templates of `sumModel_Init`, FitUtils.cxx:513-520: as many elements are read as the sum has. -/
noncomputable def addAll : List (List ℝ) → List ℝ → Res (List ℝ)
  | [], total => .ok total
  | t :: ts, total => if t.length < total.length then .ub else addAll ts (List.zipWith (fun x y => x + y) total t)

/-- `sumModel_Init`, FitUtils.cxx:508-521; copying into a vector that is too short is undefined. -/
noncomputable def sumModelInit (templates : List (List ℝ)) (fixed total : List ℝ) : Res (List ℝ) :=
  if total.length < fixed.length then .ub else addAll templates (fixed ++ total.drop fixed.length)

/-- One pixel of `extractModelCounts`, FitUtils.cxx:1338-1353. -/
noncomputable def countsPixel (model : List ℝ) (npix i : Nat) (x1 x2 pf : ℝ) (j : Nat) (out : List ℝ) : Res (List ℝ) := do
  let m1 ← vget model (i * npix + j)
  let m2 ← vget model (i * npix + j + npix)
  vset out (i * npix + j) (pf * (x1 * m1 + x2 * m2))

/-- `extractModelCounts`, FitUtils.cxx:1314-1355. -/
noncomputable def modelCounts (energies spec model out : List ℝ) : Res (List ℝ) :=
  if spec.length = 0 then .ub
  else
    let npix := model.length / spec.length
    loop (fun i out => do
      let e1 ← vget energies i
      let s1 ← vget spec i
      let e2 ← vget energies (i + 1)
      let s2 ← vget spec (i + 1)
      loop (countsPixel model npix i (e1 * s1) (e2 * s2) (Real.log (e2 / e1) / 2)) 0 npix out) 0 (spec.length - 1) out

/-! ### Singular values -/

/-- `svd_inverse`, FitUtils.cxx:87-102. -/
noncomputable def svdInverse {n : Nat} (u v : Mat n) (s : Fin n → ℝ) : Mat n :=
  open Classical in v * Matrix.diagonal (fun i => if s i ≤ 0 then 0 else 1 / s i) * u.transpose

/-- The threshold, FitUtils.cxx:130; `s0` is the first singular value. -/
noncomputable def threshold (n : Nat) (s0 eps : ℝ) : ℝ := 0.5 * Real.sqrt ((n : ℝ) + (n : ℝ) + 1) * s0 * eps

/-- Small singular values are set to zero, FitUtils.cxx:131-135. -/
noncomputable def truncate {n : Nat} (eps : ℝ) (s : Fin (n + 1) → ℝ) : Fin (n + 1) → ℝ := fun i =>
  open Classical in if |s i| < threshold (n + 1) (s 0) eps then 0 else s i

/-- `gsl_linalg_SV_solve` with given singular values. -/
noncomputable def svSolve {n : Nat} (u v : Mat n) (s : Fin n → ℝ) (g : Fin n → ℝ) : Fin n → ℝ :=
  open Classical in v.mulVec (fun i => (if s i ≠ 0 then 1 / s i else s i) * u.transpose.mulVec g i)

/-- `svd_solve`, FitUtils.cxx:104-153, with the decomposition of the matrix: the solution and the singular values kept. -/
noncomputable def svdSolve {n : Nat} (u v : Mat (n + 1)) (s : Fin (n + 1) → ℝ) (eps : ℝ) (g : Fin (n + 1) → ℝ) :
    (Fin (n + 1) → ℝ) × (Fin (n + 1) → ℝ) := (svSolve u v (truncate eps s) g, truncate eps s)

/-- The matrix that is decomposed: the diagonal of the Hessian is enlarged, FitUtils.cxx:726-728. -/
def damped {n : Nat} (hessian : Mat n) (lambda : ℝ) : Mat n := fun i j => if i = j then (1 + lambda) * hessian i j else hessian i j

/-- The covariance matrix, FitUtils.cxx:737-748: the inverse of the Hessian, or, if it has none or a negative one on the
diagonal, the one from the singular values of the matrix decomposed. Simplification: the inversion either gives the inverse or
fails if there is none. -/
noncomputable def covariance {n : Nat} (hessian u v : Mat (n + 1)) (s : Fin (n + 1) → ℝ) (eps : ℝ) : Mat (n + 1) :=
  open Classical in
    if hessian.det = 0 ∨ ∃ i, hessian⁻¹ i i < 0 then svdInverse u v (truncate eps s) else hessian⁻¹

end Verif.MatVec
