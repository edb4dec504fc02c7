import Verif.CntMap.Types
import Verif.Vec
import Mathlib.Analysis.SpecialFunctions.Pow.Real
import Mathlib.Data.List.Chain
import Mathlib.Data.List.Count
/-
What a user expects of counts maps, stated without reference to the code.
-/
namespace Verif.CntMap.Spec
open Verif.CntMap Verif.Vec

/-- The energy bins a user asks for. -/
def Asked : Bins → List Interval → Prop
  | .log a b n, l => l.length = n ∧
      ∀ k, (hk : k < l.length) → l[k].lo = a * (b / a) ^ ((k : ℝ) / n) ∧
        l[k].hi = a * (b / a) ^ (((k : ℝ) + 1) / n)
  | .edges es, l => l.length + 1 = es.length ∧
      ∀ k, (hk : k < l.length) → l[k].lo = val es k ∧ l[k].hi = val es (k + 1)
  | .pairs as bs, l => l.length = as.length ∧
      ∀ k, (hk : k < l.length) → l[k].lo = val as k ∧ l[k].hi = val bs k

/-- Bins that make sense: at least one, none empty, in order. -/
def Good : Bins → Prop
  | .log a b n => 0 < a ∧ a < b ∧ 0 < n
  | .edges es => 2 ≤ es.length ∧ es.Pairwise (· < ·)
  | .pairs as bs => as ≠ [] ∧ as.length = bs.length ∧ (∀ k < as.length, val as k < val bs k) ∧
      ∀ k, k + 1 < as.length → val bs k ≤ val as (k + 1)

/-- Bins without gaps. -/
def Gapless (l : List Interval) : Prop := l.IsChain (fun a b => a.hi = b.lo)

/-- The pixel with number `i`, counted from 0: half a pixel to both sides of `i + 1`. -/
def InPixel (i : Nat) (x : ℝ) : Prop := (i : ℝ) + 1 / 2 ≤ x ∧ x < (i : ℝ) + 3 / 2

/-- The energy is in this bin. -/
def InBin (b : Interval) (e : ℝ) : Prop := b.lo ≤ e ∧ e < b.hi

/-- The event is in pixel `(i, j)` and energy bin `k`, according to these coordinates. -/
def InCell (at_ : Event → ℝ × ℝ) (l : List Interval) (i j k : Nat) (e : Event) : Prop :=
  InPixel i (at_ e).1 ∧ InPixel j (at_ e).2 ∧ ∃ b, l[k]? = some b ∧ InBin b (e "ENERGY")

open Classical in
/-- The number of events in a cell. -/
noncomputable def number (at_ : Event → ℝ × ℝ) (l : List Interval) (i j k : Nat) (es : List Event) : Nat :=
  es.countP fun e => decide (InCell at_ l i j k e)

/-- The counts of a map as an array: pixels of a row, rows, energy bins. -/
def Holds (nx ny : Nat) (l : List Interval) (at_ : Event → ℝ × ℝ) (data : List ℝ) (es : List Event) : Prop :=
  data.length = nx * ny * l.length ∧
    ∀ i < nx, ∀ j < ny, ∀ k < l.length,
      val data (i + nx * (j + ny * k)) = (number at_ l i j k es : ℝ)

/-- The bounds of the bins as a list of energies. -/
def Bounds (l : List Interval) (es : List ℝ) : Prop :=
  es.length = l.length + 1 ∧ ∀ k, (hk : k < l.length) → val es k = l[k].lo ∧ val es (k + 1) = l[k].hi

open Classical in
/-- The number of events in pixel `p` and energy bin `k` of a HEALPix map. -/
noncomputable def hpxNumber (pix : Event → Int) (l : List Interval) (p k : Nat) (es : List Event) : Nat :=
  es.countP fun e => decide (pix e = (p : Int) ∧ ∃ b, l[k]? = some b ∧ InBin b (e "ENERGY"))

/-- The pixel in column `i` and row `j`: the direction of its middle and the solid angle between its
corners. -/
def IsPixel {D : Type} (dir : ℝ × ℝ → Option D) (solid : D → D → D → D → ℝ) (i j : Nat) (p : D × ℝ) : Prop :=
  dir ((i : ℝ) + 1, (j : ℝ) + 1) = some p.1 ∧
    ∃ a b c d, dir ((i : ℝ) + 1 / 2, (j : ℝ) + 1 / 2) = some a ∧
      dir ((i : ℝ) + 1 / 2, (j : ℝ) + 3 / 2) = some b ∧ dir ((i : ℝ) + 3 / 2, (j : ℝ) + 3 / 2) = some c ∧
      dir ((i : ℝ) + 3 / 2, (j : ℝ) + 1 / 2) = some d ∧ p.2 = solid a b c d

/-- The middle and the corners of the pixel are on the sky. -/
def OnSky {D : Type} (dir : ℝ × ℝ → Option D) (i j : Nat) : Prop :=
  (dir ((i : ℝ) + 1, (j : ℝ) + 1)).isSome ∧ (dir ((i : ℝ) + 1 / 2, (j : ℝ) + 1 / 2)).isSome ∧
    (dir ((i : ℝ) + 1 / 2, (j : ℝ) + 3 / 2)).isSome ∧ (dir ((i : ℝ) + 3 / 2, (j : ℝ) + 3 / 2)).isSome ∧
    (dir ((i : ℝ) + 3 / 2, (j : ℝ) + 1 / 2)).isSome

end Verif.CntMap.Spec
