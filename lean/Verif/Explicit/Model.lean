import Verif.MapOut.Model
import Verif.FitUtils.Model
/-
The functions of the binned likelihood that add up the model map pixel by pixel (`npred_explicit`, `npred_explicit_src`, `nll_explict`,
`spectrum_explict`), src/BinnedLikelihood.cxx:1065-1171.  `w` is the map of weights of the likelihood, `n` the size of the counts map.
-/
namespace Verif.Explicit

open Edisp MapOut

variable {K : Type} [Field K] [LinearOrder K]

/-- `sumVector`, src/FitUtils.cxx:243-254. -/
def sumVector (l : List K) : K := l.foldl (fun acc x => acc + x) 0

/-- `innerProduct`, src/FitUtils.cxx:347-366. -/
def innerProduct (a b : List K) : Res K :=
  if a.length ≠ b.length then .throws
  else .ok ((a.zip b).foldl (fun acc z => acc + z.1 * z.2) 0)

/-- The sum with or without weights, BinnedLikelihood.cxx:1070-1093, 1103-1114. -/
def total (w : Option (List K)) (weighted : Bool) (m : List K) : Res K :=
  if weighted then
    match w with
    | none => .throws
    | some ws => innerProduct m ws
  else .ok (sumVector m)

/-- `npred_explicit`, BinnedLikelihood.cxx:1065-1095; the mask is used, as the argument is left out at 1068 (BinnedLikelihood.h:496). -/
def npredExplicit (n : Nat) (w : Option (List K)) (maps : List (SrcMap K)) (weighted : Bool) : Res K := do
  let m ← computeModelMap n maps true (List.replicate n 0)
  total w weighted m

/-- `npred_explicit_src`, BinnedLikelihood.cxx:1097-1115. -/
def npredExplicitSrc (n : Nat) (w : Option (List K)) (s : SrcMap K) (weighted : Bool) : Res K := do
  let m ← computeModelMap n [s] true (List.replicate n 0)
  total w weighted m

/-- One bin of `spectrum_explict`, BinnedLikelihood.cxx:1159-1166. -/
def binSum (w : Option (List K)) (m : List K) (start npix : Nat) : Res K :=
  loop (fun i sum => do
    let x ← vget m i
    match w with
    | none => .ok (sum + x)
    | some ws => do
      let y ← vget ws i
      .ok (sum + x * y)) start npix 0

/-- `spectrum_explict`, BinnedLikelihood.cxx:1138-1171; the start of a bin, which the code counts up, is a product here. -/
def spectrumExplicit (n nb npix : Nat) (w : Option (List K)) (s : SrcMap K) (weighted : Bool) : Res (List K) :=
  if weighted && w.isNone then .throws
  else do
    let m ← computeModelMap n [s] true (List.replicate n 0)
    (List.range nb).mapM (fun ie => binSum (if weighted then w else none) m (ie * npix) npix)

/-- `nll_explict`, BinnedLikelihood.cxx:1117-1136. -/
noncomputable def nllExplicit (n : Nat) (data : List ℝ) (w : Option (List ℝ)) (maps : List (SrcMap ℝ)) (weighted : Bool) : Res ℝ := do
  let m ← computeModelMap n maps true (List.replicate n 0)
  if weighted then
    match w with
    | none => .throws
    | some ws => FitUtils.logLikePoissonW data m ws
  else FitUtils.logLikePoisson data m

end Verif.Explicit
