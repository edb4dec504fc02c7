import Verif.Basic
import Mathlib.Analysis.SpecialFunctions.Log.Basic
/-
The fit by expectation maximisation, src/OptEM.cxx, and the likelihood of one source,
src/OneSourceFunc.cxx.

A source is its density at an event and its predicted counts as functions of its parameters
`P`, and the number of free parameters.  The optimizer is a function from the objective and the
old parameters to the new ones (whatever state an exception leaves included).
-/
namespace Verif.EM

variable {P E : Type}

/-- What is used of a source. -/
structure Src (P E : Type) where
  dens : P → E → ℝ
  npred : P → ℝ
  nfree : Nat

/-- `chifunc`, OptEM.cxx:99-113. -/
noncomputable def chifunc (ndof : Nat) : Res ℝ :=
  if ndof ≤ 0 then .throws
  else if ndof < 10 then .ok (-0.2265 + ndof * (1.2719 + ndof * (-0.0097)))
  else
    let x : ℝ := ((ndof : ℝ) - 255) / 141.5951
    .ok (265.7118 + x * (144.4737 + x * (-0.2998 + x * (0.2429 + x * (-0.1234)))))

/-- `ztot` for an event, OptEM.cxx:45-51. -/
noncomputable def ztot (srcs : List (Src P E × P)) (e : E) : ℝ :=
  srcs.foldl (fun z s => z + s.1.dens s.2 e) 0

/-- The weight of a source for an event, the entry of `Warray`, OptEM.cxx:44-55. -/
noncomputable def weight (srcs : List (Src P E × P)) (s : Src P E × P) (e : E) : ℝ :=
  if 0 < ztot srcs e then s.1.dens s.2 e / ztot srcs e else s.1.dens s.2 e

/-- `OneSourceFunc::value`, OneSourceFunc.cxx:40-63, for a vector of weights. -/
noncomputable def oneSource (epsw epsf : ℝ) (s : Src P E) (ew : List (E × ℝ)) (p : P) : ℝ :=
  ew.foldl (fun val x =>
    if epsw < x.2 then
      if epsf < |s.dens p x.1| then val + x.2 * Real.log (s.dens p x.1) else val
    else val) 0 - s.npred p

/-- The cuts, OptEM.cxx:61-62. -/
noncomputable def epsW : ℝ := 0.01

/-- See `epsW`. -/
noncomputable def epsF : ℝ := 1 / 10 ^ 20

/-- The M step for one source, OptEM.cxx:60-80: the new parameters; without free parameters
`chifunc` throws inside the `try`, and nothing happens. -/
noncomputable def mStep (opt : Src P E → (P → ℝ) → P → P) (s : Src P E) (ew : List (E × ℝ)) (p : P) : P :=
  if s.nfree ≤ 0 then p else opt s (oneSource epsW epsF s ew) p

/-- The events with the weights of a source. -/
noncomputable def weighted (srcs : List (Src P E × P)) (events : List E) (s : Src P E × P) : List (E × ℝ) :=
  events.map fun e => (e, weight srcs s e)

/-- One round, OptEM.cxx:36-84: new parameters and `logL`.  All weights are from before the
M steps. -/
noncomputable def iteration (opt : Src P E → (P → ℝ) → P → P) (events : List E) (srcs : List (Src P E × P)) :
    List (Src P E × P) × ℝ :=
  let new := srcs.map fun s => (s.1, mStep opt s.1 (weighted srcs events s) s.2)
  (new, ((srcs.map fun s => oneSource epsW epsF s.1 (weighted srcs events s)
    (mStep opt s.1 (weighted srcs events s) s.2)).sum))

/-- `nPar`, OptEM.cxx:38, 63. -/
def nPar (srcs : List (Src P E × P)) : Nat := (srcs.map fun s => s.1.nfree).sum

/-- The condition at the end of the loop, OptEM.cxx:92: whether to go on. -/
noncomputable def again (n : Nat) (logL oldLogL : ℝ) : Res Bool := do
  let c ← chifunc n
  .ok (open Classical in decide (0.1 * c < |logL - oldLogL| ∨ oldLogL = 0))

/-- `findMin`, OptEM.cxx:19-98, from the moment when the loop is entered with `logL`: the
parameters when it ends. -/
inductive Run (opt : Src P E → (P → ℝ) → P → P) (events : List E) :
    List (Src P E × P) → ℝ → List (Src P E × P) → Prop
  | stop (srcs : List (Src P E × P)) (l : ℝ)
      (h : again (nPar srcs) (iteration opt events srcs).2 l = .ok false) :
      Run opt events srcs l (iteration opt events srcs).1
  | go (srcs : List (Src P E × P)) (l : ℝ) (out : List (Src P E × P))
      (h : again (nPar srcs) (iteration opt events srcs).2 l = .ok true)
      (next : Run opt events (iteration opt events srcs).1 (iteration opt events srcs).2 out) :
      Run opt events srcs l out

end Verif.EM
