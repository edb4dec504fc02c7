import Verif.Basic
import Verif.StdMap
import Verif.TsMap.Types
/-
Model of gttsmap, src/TsMap/TsMap.cxx.

The sources are the map of the source model, from names to sources of an arbitrary type.
The optimizer, the log-likelihood and the projection (astro::SkyProj) are arbitrary
functions.  `Fit.fails` is an `optimizers::Exception`, `Fit.dies` any other exception.  The
values are rounded to single precision in the code (`m_tsMap`), which is left out, as are the
source maps, messages and date keywords.
-/
namespace Verif.TsMap

open Verif

variable {κ : Type} [LinearOrder κ] {A D : Type}

/-- The source model: the sources by name. -/
abbrev Sources (κ A : Type) := List (κ × A)

/-- What does not change during a run. -/
structure Setup (κ A D : Type) where
  sky : Proj → ℝ → ℝ → D
  test : κ
  src : D → A
  fit : Sources κ A → Fit (Sources κ A)
  value : Sources κ A → ℝ

/-- The projection of the map, TsMap.cxx:231-240. -/
noncomputable def proj (o : Opts) : Proj :=
  ⟨o.proj, ((o.nx : ℝ) / 2 + 0.5, (o.ny : ℝ) / 2 + 0.5), (o.xref, o.yref), (-o.binsz, o.binsz),
    o.coordsys = ['G', 'A', 'L']⟩

/-- `setGrid`: the inner loop, TsMap.cxx:244-246. -/
noncomputable def gridRow (s : Setup κ A D) (p : Proj) (j n : Nat) : List D :=
  (List.range n).map (fun i : Nat => s.sky p ((i : ℝ) + 1) ((j : ℝ) + 1))

/-- `setGrid`, TsMap.cxx:224-248. -/
noncomputable def setGrid (s : Setup κ A D) (o : Opts) : List D :=
  (List.range o.ny).flatMap (fun j => gridRow s (proj o) j o.nx)

/-- `SourceModel::addSource`, SourceModel.cxx:197-206. -/
def addSource (m : Sources κ A) (n : κ) (a : A) : Res (Sources κ A) :=
  if (StdMap.find m n).isSome then .throws else .ok (StdMap.put m n a)

/-- `SourceModel::deleteSource`, SourceModel.cxx:208-218. -/
def deleteSource (m : Sources κ A) (n : κ) : Res (Sources κ A) :=
  if (StdMap.find m n).isSome then .ok (StdMap.erase m n) else .throws

/-- The fit of the background, TsMap.cxx:270-276: the model it leaves and `logLike0`. -/
def background (s : Setup κ A D) (m : Sources κ A) : Sources κ A × ℝ :=
  match s.fit m with
  | .done m' => (m', s.value m')
  | .fails m' => (m', 0)
  | .dies m' => (m', 0)

/-- The fit with the test source, TsMap.cxx:290-297. -/
def fitPixel (s : Setup κ A D) (l0 : ℝ) (m : Sources κ A) : Res (Sources κ A × ℝ) :=
  match s.fit m with
  | .done m' => .ok (m', 2 * (s.value m' - l0))
  | .fails m' => .ok (m', 0)
  | .dies _ => .throws

/-- One pixel, TsMap.cxx:286-305. -/
def pixel (s : Setup κ A D) (l0 : ℝ) (m : Sources κ A) (d : D) : Res (Sources κ A × ℝ) := do
  let m₁ ← addSource m s.test (s.src d)
  let r ← fitPixel s l0 m₁
  let m₂ ← deleteSource r.1 s.test
  .ok (m₂, r.2)

/-- The loop over the pixels, TsMap.cxx:282-306. -/
def scan (s : Setup κ A D) (l0 : ℝ) : List D → Sources κ A → Res (Sources κ A × List ℝ)
  | [], m => .ok (m, [])
  | d :: ds, m => do
    let r ← pixel s l0 m d
    let q ← scan s l0 ds r.1
    .ok (q.1, r.2 :: q.2)

/-- `computeMap`, TsMap.cxx:250-309; `m_dirs.at(0)` throws without pixels. -/
def computeMap (s : Setup κ A D) (binned : Bool) (ds : List D) (m : Sources κ A) :
    Res (Sources κ A × List ℝ) :=
  match binned, ds with
  | false, [] => .throws
  | _, ds => scan s (background s m).2 ds (background s m).1

/-- `writeFitsFile`, TsMap.cxx:326-380. -/
noncomputable def image (o : Opts) (px : List ℝ) : Image :=
  ⟨o.nx, o.ny, (proj o).crpix, (proj o).crval, (proj o).cdelt,
    (if o.coordsys = ['G', 'A', 'L'] then ['G', 'L', 'O', 'N', '-'] else ['R', 'A', '-', '-', '-'])
      ++ o.proj,
    (if o.coordsys = ['G', 'A', 'L'] then ['G', 'L', 'A', 'T', '-'] else ['D', 'E', 'C', '-', '-'])
      ++ o.proj,
    px⟩

/-- `run`, TsMap.cxx:186-190: the source model at the end and the image. -/
noncomputable def run (s : Setup κ A D) (o : Opts) (m : Sources κ A) :
    Res (Sources κ A × Image) := do
  let r ← computeMap s o.binned (setGrid s o) m
  .ok (r.1, image o r.2)

end Verif.TsMap
