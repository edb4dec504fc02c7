import Verif.Basic
import Mathlib.Data.List.Sort
import Mathlib.Analysis.SpecialFunctions.Log.Basic
import Mathlib.Algebra.Order.Floor.Semiring
/-
Model of `Likelihood/Accumulator.h` and `src/Accumulator.cxx` in exact real
arithmetic.
-/
namespace Verif.Accum

/-! ### Kahan_Accumulator -/

/-- Accumulator.h:50-51. -/
structure Kahan where
  /-- `m_sum` -/
  sum : ℝ
  /-- `m_c` -/
  c : ℝ

/-- Constructor, Accumulator.h:20-23. -/
def Kahan.init : Kahan := ⟨0, 0⟩

/-- `add`, Accumulator.h:28-38. -/
noncomputable def Kahan.add (s : Kahan) (value : ℝ) : Kahan :=
  let y := value - s.c
  let t := s.sum + y
  { c := (t - s.sum) - y, sum := t }

/-- `total`, Accumulator.h:41-46: returns the running sum and resets. -/
def Kahan.total (s : Kahan) : Kahan × ℝ := (⟨0, 0⟩, s.sum)

/-! ### SumByNumber -/

/-- Accumulator.h:106-108. -/
structure SumByNumber where
  /-- `m_num` -/
  num : Nat
  /-- `m_counter` -/
  counter : Nat
  /-- `m_chunks` -/
  chunks : List ℝ

/-- Constructor with the default argument, Accumulator.h:87. -/
def SumByNumber.init : SumByNumber := ⟨100, 0, [0]⟩

/-- `add`, Accumulator.h:88-95.  `m_chunks.back()` on an empty vector is
undefined. -/
noncomputable def SumByNumber.add (s : SumByNumber) (value : ℝ) : Res SumByNumber :=
  match s.chunks.getLast? with
  | none => .ub
  | some b =>
    let chunks := s.chunks.dropLast ++ [b + value]
    let counter := s.counter + 1
    if s.num ≤ counter then .ok { s with chunks := chunks ++ [0], counter := 0 }
    else .ok { s with chunks := chunks, counter := counter }

/-- `total`, Accumulator.h:96-104.  `resize(1, 0)` keeps the first chunk. -/
noncomputable def SumByNumber.total (s : SumByNumber) : SumByNumber × ℝ :=
  ({ s with chunks := vresize s.chunks 1 0, counter := 0 },
   s.chunks.foldl (· + ·) 0)

/-! ### Accumulator -/

/-- Data members, Accumulator.h:70-79, 111.  `m_xmin`/`m_xmax` are not
initialised by the constructor: `none`. -/
structure Acc where
  /-- `m_setOuterBounds` -/
  setOuter : Bool
  /-- `m_first` -/
  first : Bool
  /-- `m_xmin`, `m_xmax` -/
  bounds : Option (ℝ × ℝ)
  /-- `m_total` -/
  total : ℝ
  /-- `m_npts` -/
  npts : Nat
  /-- `m_max_xrange` -/
  maxXrange : ℝ
  /-- `m_partialSums` -/
  partials : List SumByNumber

/-- Constructor, Accumulator.cxx:19-20. -/
noncomputable def Acc.init : Acc := ⟨true, true, none, 0, 10, 1e-30, []⟩

/-- `indx`, Accumulator.cxx:66-77; `.at` throws out of range, and the conversion
to `size_t` truncates. -/
noncomputable def Acc.indx (s : Acc) (xmin xmax xx : ℝ) : Res Nat :=
  if xx ≤ xmin then .ok 0
  else if xmax ≤ xx then .ok (s.partials.length - 1)
  else
    let xstep := (Real.log xmax - Real.log xmin) / (s.npts - 1 : ℝ)
    let my := ⌊(Real.log xx - Real.log xmin) / xstep⌋₊
    if my < s.partials.length then .ok my else .throws

/-- First half of `add`, Accumulator.cxx:23-38: update of the bounds.  Reading
the uninitialised bounds is undefined. -/
noncomputable def Acc.updateBounds (s : Acc) (value : ℝ) : Res Acc :=
  let absvalue := |value|
  if s.setOuter = true ∧ absvalue ≠ 0 then
    .ok { s with bounds := some (absvalue, absvalue), setOuter := false, total := 0 }
  else match s.bounds with
    | none => .ub
    | some (xmin, xmax) =>
      let xmin' := if absvalue < xmin ∧ absvalue ≠ 0 ∧ s.maxXrange < absvalue / xmax
        then absvalue else xmin
      let xmax' := if xmax < absvalue then absvalue else xmax
      .ok { s with bounds := some (xmin', xmax') }

/-- `add`, Accumulator.cxx:22-44. -/
noncomputable def Acc.add (s : Acc) (value : ℝ) : Res Acc := do
  let s ← s.updateBounds value
  if s.first then .ok { s with total := s.total + value }
  else match s.bounds with
    | none => .ub
    | some (xmin, xmax) => do
      let i ← s.indx xmin xmax |value|
      let p ← vget s.partials i
      let p' ← p.add value
      let ps ← vset s.partials i p'
      .ok { s with partials := ps }

/-- `total`, Accumulator.cxx:46-64; `std::stable_sort` is `mergeSort`. -/
noncomputable def Acc.getTotal (s : Acc) : Acc × ℝ :=
  if s.first then
    ({ s with first := false, partials := vresize s.partials s.npts SumByNumber.init }, s.total)
  else
    let sums := s.partials.map (fun p => p.total.2)
    let sorted := sums.mergeSort (fun a b => decide (a ≤ b))
    let t := sorted.foldl (· + ·) 0
    ({ s with total := t, partials := vresize [] s.npts SumByNumber.init }, t)

/-! ### Call sequences -/

/-- A call made by the user. -/
inductive Call where
  | add (v : ℝ)
  | total

/-- Outputs of the `total` calls of a call sequence on a Kahan accumulator. -/
noncomputable def Kahan.run : Kahan → List Call → List ℝ
  | _, [] => []
  | s, .add v :: cs => Kahan.run (s.add v) cs
  | s, .total :: cs => s.total.2 :: Kahan.run s.total.1 cs

/-- Outputs of the `total` calls of a call sequence on an Accumulator. -/
noncomputable def Acc.run : Acc → List Call → Res (List ℝ)
  | _, [] => .ok []
  | s, .add v :: cs => do
    let s' ← s.add v
    Acc.run s' cs
  | s, .total :: cs => do
    let r ← Acc.run s.getTotal.1 cs
    .ok (s.getTotal.2 :: r)

end Verif.Accum
