import Verif.Basic
import Verif.Edisp.Model
/-
Model of `SourceMapCache::computeModelMap`: the model map of one or several sources, put in a
vector of the caller.
-/
namespace Verif.MapOut
open Verif.Edisp

variable {K : Type} [Field K] [LinearOrder K]

/-- The loop over the sources, SourceMapCache.cxx:354-367; `maps` are their source maps with
their correction factors and spectrum weights brought up to date (`updateModelMap_fromSrcMap`,
:370-390; `Verif.Drm`, `Verif.Binned`).  Making and erasing the maps has no effect here. -/
def fill (useMask : Bool) : List (SrcMap K) → List K → Res (List K)
  | [], out => .ok out
  | s :: ss, out => do
    let out ← updateModelMap s useMask out
    fill useMask ss out

/-- `computeModelMap`, SourceMapCache.cxx:336-368, `n` being `data_map_size()`; also
`BinnedLikelihood::computeModelMap`, BinnedLikelihood.cxx:594-614. -/
def computeModelMap (n : Nat) (maps : List (SrcMap K)) (useMask : Bool) (out : List K) : Res (List K) :=
  fill useMask maps (vresize out n 0)

/-- `FitUtils::extractModelFromSource`, FitUtils.cxx:1269-1282, for a source of the model,
without rescaling: the vector is set to zero first. -/
def extractModel (n : Nat) (s : SrcMap K) (out : List K) : Res (List K) :=
  computeModelMap n [s] false (List.replicate (vresize out n (0 : K)).length 0)

end Verif.MapOut
