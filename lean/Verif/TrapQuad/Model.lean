import Verif.Vec
import Mathlib.Analysis.SpecialFunctions.Log.Basic
/-
Model of `src/TrapQuad.cxx` and `Likelihood/TrapQuad.h`.  `double` is `ℝ`; the function
object is a function.
-/
namespace Verif.TrapQuad

/-- `compute_integral`, TrapQuad.cxx:88-95.  The two end terms, then the inner nodes from
the last to the first: after `n--`, `while (--n > 0)` visits `size-2, ..., 1`.  With fewer
than two points `m_x[n-2]` is read before the beginning of the vector. -/
noncomputable def computeIntegral (x y : List ℝ) : Res ℝ :=
  let n := y.length
  if n < 2 then .ub
  else do
    let y0 ← vget y 0
    let x1 ← vget x 1
    let x0 ← vget x 0
    let yn ← vget y (n - 1)
    let xn ← vget x (n - 1)
    let xm ← vget x (n - 2)
    loop (fun i sum => do
      let m := n - 2 - i
      let ym ← vget y m
      let xp ← vget x (m + 1)
      let xq ← vget x (m - 1)
      .ok (sum + ym * (xp - xq) / 2)) 0 (n - 2) (y0 * (x1 - x0) / 2 + yn * (xn - xm) / 2)

/-- `compute_log_integral`, TrapQuad.cxx:97-119. -/
noncomputable def computeLogIntegral (x y : List ℝ) : Res ℝ :=
  let n := y.length
  if n < 2 then .ub
  else do
    let y0 ← vget y 0
    let x1 ← vget x 1
    let x0 ← vget x 0
    let yn ← vget y (n - 1)
    let xn ← vget x (n - 1)
    let xm ← vget x (n - 2)
    loop (fun i sum => do
      let m := n - 2 - i
      let ym ← vget y m
      let x' ← vget x m
      let xp ← vget x (m + 1)
      let xq ← vget x (m - 1)
      .ok (sum + ym * x' * Real.log (xp / xq) / 2)) 0 (n - 2)
      (y0 * x0 * Real.log (x1 / x0) / 2 + yn * xn * Real.log (xn / xm) / 2)

/-- The object, TrapQuad.h:36-62. -/
structure Obj where
  x : List ℝ
  y : List ℝ
  func : Option (ℝ → ℝ)
  useLog : Bool

/-- Constructor from two vectors, TrapQuad.h:36-38. -/
def Obj.ofVectors (x y : List ℝ) (useLog : Bool) : Obj := ⟨x, y, none, useLog⟩

/-- Constructor from a function, TrapQuad.h:40-41. -/
def Obj.ofFunc (f : ℝ → ℝ) (useLog : Bool) : Obj := ⟨[], [], some f, useLog⟩

/-- The choice of rule, TrapQuad.cxx:27-32, 53-58, 79-84. -/
noncomputable def Obj.compute (q : Obj) : Res ℝ :=
  if q.useLog then computeLogIntegral q.x q.y else computeIntegral q.x q.y

/-- `integral()`, TrapQuad.cxx:18-34. -/
noncomputable def Obj.integral (q : Obj) : Res ℝ :=
  match q.func with
  | some _ => .throws
  | none => q.compute

/-- `integral(xmin, xmax, npts)`, TrapQuad.cxx:36-60.  With `npts = 1` the step is a
division by zero, but then the one-point grid is undefined behaviour anyway. -/
noncomputable def Obj.integralUniform (q : Obj) (xmin xmax : ℝ) (npts : Nat) : Res (Obj × ℝ) :=
  match q.func with
  | none => .throws
  | some f => do
    let xstep := (xmax - xmin) / ((npts : ℝ) - 1)
    let x := (List.range npts).map (fun i : Nat => (i : ℝ) * xstep + xmin)
    let q := { q with x := x, y := x.map f }
    let v ← q.compute
    .ok (q, v)

/-- `integral(xvals)`, TrapQuad.cxx:62-86. -/
noncomputable def Obj.integralOn (q : Obj) (xvals : List ℝ) : Res (Obj × ℝ) :=
  match q.func with
  | none => .throws
  | some f => do
    let q := { q with x := xvals, y := xvals.map f }
    let v ← q.compute
    .ok (q, v)

end Verif.TrapQuad
