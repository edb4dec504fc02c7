import Verif.HpxConv.Types
import Verif.HpxMap.Spec
import Mathlib.Data.List.Perm.Basic
/-
Specification of the convolution of maps in equal-area pixels, independent of the model.
-/
namespace Verif.HpxConv.Spec
open HpxMap HpxMap.Spec

/-- Each pixel has four finer ones, the nested order is an order of the same pixels, maps are of the whole sky. -/
structure Regular (t : Tools) : Prop where
  inside : ∀ n s j, 0 < n → j < pixels (2 * n) → t.parent n s j < pixels n
  four : ∀ n s i, 0 < n → i < pixels n → ((List.range (pixels (2 * n))).filter (fun j => t.parent n s j == i)).length = 4
  perm : ∀ n, 0 < n → ((List.range (pixels n)).map (t.swap n)).Perm (List.range (pixels n))
  whole : ∀ n f p, (t.transform n f p).length = pixels n

/-- The harmonic product of maps without negative pixels has none. -/
def Positive (t : Tools) : Prop := ∀ n f p, (∀ v ∈ f, (0 : ℝ) ≤ v) → (∀ v ∈ p, (0 : ℝ) ≤ v) → ∀ v ∈ t.transform n f p, 0 ≤ v

/-- A ring of pixels. -/
abbrev Ring := Nat × Nat × ℝ

/-- The rings that are filled: the first, and each ring after one within the radius; the last is not within. -/
inductive Filled (th : ℝ) : ℝ → List Ring → Prop
  | stop {theta : ℝ} : th ≤ theta → Filled th theta []
  | next {theta : ℝ} {r : Ring} {l : List Ring} : theta < th → Filled th r.2.2 l → Filled th theta (r :: l)

/-- The rings follow each other, beginning with the given pixel. -/
def Contiguous : Nat → List Ring → Prop
  | _, [] => True
  | n, r :: l => r.1 = n ∧ Contiguous (n + r.2.1) l

/-- The mean of the point spread function (where positive) over the finer pixels of the first pixel of a ring: six orders
finer at the first ring, four and two at the next ones, else one, and up to order 13. -/
noncomputable def ringMean (t : Tools) (psf : Psf) (order ring start : Nat) : ℝ :=
  let d := max 1 (min (13 - order) (6 - 2 * ring))
  (∑ i ∈ Finset.range (4 ^ d), max 0 (psf.value (t.theta (order + d) (t.swap (2 ^ order) start * 4 ^ d + i)))) / 4 ^ d

/-- The pixels of rings. -/
noncomputable def blocks (t : Tools) (psf : Psf) (order : Nat) : Nat → List Ring → List ℝ
  | _, [] => []
  | k, r :: l => List.replicate r.2.1 (ringMean t psf order k r.1) ++ blocks t psf order (k + 1) l

/-- The counts of a pixel: the value of the map times the exposure at the centre of the pixel. -/
noncomputable def product {δ : Type} (lib : Library δ) (m : Map) (expo : Option (δ → ℝ)) (k i : Nat) : ℝ :=
  at' m k i * (expo.map (fun f => f (lib.centre m.nside m.nest i))).getD 1

end Verif.HpxConv.Spec
