import Verif.Vec
/-
Model of `src/HistND.cxx`.  A binner is its number of bins and its `computeIndex` (an
arbitrary function, negative outside its range); the cells are elements of `K`.
-/
namespace Verif.HistND

open Verif.Vec

variable {K : Type}

/-- A binner. -/
structure Binner (V : Type) where
  n : Nat
  index : V → Int

/-- Data members: binners, cells, strides. -/
structure Hist (V K : Type) where
  binners : List (Binner V)
  data : List K
  strides : List Nat

/-- The strides, HistND.cxx:24-29: each is the previous one times the previous number of
bins, the first is 1. -/
def stridesFrom : Nat → List Nat → List Nat
  | _, [] => []
  | s, n :: ns => s :: stridesFrom (s * n) ns

variable {V : Type}

/-- Numbers of bins of the axes. -/
def Hist.dims (h : Hist V K) : List Nat := h.binners.map Binner.n

/-- Constructor, HistND.cxx:13-30.  Without axes `m_strides[0] = 1` is undefined
behaviour. -/
def Hist.new [Zero K] (binners : List (Binner V)) : Res (Hist V K) :=
  if binners = [] then .ub
  else .ok ⟨binners, List.replicate ((binners.map Binner.n).prod) 0,
    stridesFrom 1 (binners.map Binner.n)⟩

/-- `binIndex(ivalues)`, HistND.cxx:73-84. -/
def Hist.binIndex (h : Hist V K) (iv : List Nat) : Res Nat :=
  if iv.length ≠ h.binners.length then .throws
  else .ok ((List.zipWith (· * ·) h.strides iv).foldl (· + ·) 0)

/-- The loop over the coordinates, HistND.cxx:60-69: the indices, or `none` for the
`return -1`. -/
def findBins (border : Nat) : List (Binner V) → List V → Option (List Nat)
  | b :: bs, v :: vs =>
    let i := b.index v
    if i < border ∨ (b.n : Int) - border ≤ i then none
    else (findBins border bs vs).map (fun l => i.toNat :: l)
  | _, _ => some []

/-- `binIndex(values, border_size)`, HistND.cxx:53-71; `none` is -1. -/
def Hist.binIndexOf (h : Hist V K) (values : List V) (border : Nat) : Res (Option Nat) :=
  if values.length ≠ h.binners.length then .throws
  else match findBins border h.binners values with
    | none => .ok none
    | some iv => do
      let i ← h.binIndex iv
      .ok (some i)

/-- `fillBin`, HistND.cxx:46-51. -/
def Hist.fillBin [Add K] (h : Hist V K) (values : List V) (weight : K) : Res (Hist V K) := do
  let i ← h.binIndexOf values 0
  match i with
  | none => .ok h
  | some i => do
    let x ← vget h.data i
    let d ← vset h.data i (x + weight)
    .ok { h with data := d }

/-- Number of bins along an axis from the strides, HistND.cxx:102-107, 138-143, 173-178.
A stride of 0 (an axis without bins) is a division by zero. -/
def Hist.dimSize (h : Hist V K) (idim : Nat) : Res Nat := do
  let s ← vget h.strides idim
  if s = 0 then .ub
  else if idim + 1 = h.binners.length then .ok (h.data.length / s)
  else do
    let t ← vget h.strides (idim + 1)
    .ok (t / s)

/-- `setSlice`, HistND.cxx:91-124. -/
def Hist.setSlice (h : Hist V K) (idim : Nat) (iv : List Nat) (data : List K) : Res (Hist V K) :=
  if h.binners.length ≤ idim then .throws
  else if iv.length ≠ h.binners.length then .throws
  else do
    let n ← h.dimSize idim
    if data.length ≠ n then .throws
    else do
      let idx ← h.binIndex (iv.set idim 0)
      let stride ← vget h.strides idim
      let d ← loop (fun i d => do
        let x ← vget data i
        vset d (idx + i * stride) x) 0 data.length h.data
      .ok { h with data := d }

/-- `getSlice`, HistND.cxx:127-159. -/
def Hist.getSlice (h : Hist V K) (idim : Nat) (iv : List Nat) : Res (List K) :=
  if h.binners.length ≤ idim then .throws
  else if iv.length ≠ h.binners.length then .throws
  else do
    let n ← h.dimSize idim
    let idx ← h.binIndex (iv.set idim 0)
    let stride ← vget h.strides idim
    (List.range n).mapM (fun i => vget h.data (idx + i * stride))

/-- One output cell of `sumRange`, HistND.cxx:200-206: the index starts at `iout` and grows
by the stride, whatever `firstBin` is. -/
def Hist.sumCell [AddCommMonoid K] (h : Hist V K) (stride first last iout : Nat) : Res K :=
  loop (fun j acc => do
    let x ← vget h.data (iout + (j - first) * stride)
    .ok (acc + x)) first (last - first) 0

/-- `sumRange`, HistND.cxx:162-209. -/
def Hist.sumRange [AddCommMonoid K] (h : Hist V K) (idim first last : Nat) : Res (Hist V K) :=
  if h.binners.length ≤ idim then .throws
  else if last ≤ first then .throws
  else do
    let n ← h.dimSize idim
    if n ≤ first then .throws
    else if n < last then .throws
    else do
      let r : Hist V K ← Hist.new (h.binners.eraseIdx idim)
      let stride ← vget h.strides idim
      let out ← (List.range r.data.length).mapM (h.sumCell stride first last)
      .ok { r with data := out }

end Verif.HistND
