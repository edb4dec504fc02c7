import Mathlib.Order.Bounds.Basic
import Mathlib.Data.Set.Operations
import Verif.StdMap
import Verif.TsMap.Types
/-
Specification of the map of test statistics, without reference to the code.
-/
namespace Verif.TsMap.Spec

variable {κ A : Type}

/-- Two source models differ only in what fits change: `same` says this of two sources. -/
def Alike (same : A → A → Prop) (m m' : List (κ × A)) : Prop :=
  List.Forall₂ (fun x y => x.1 = y.1 ∧ same x.2 y.2) m m'

/-- The highest log-likelihood that can be had by fitting the model. -/
def Best (same : A → A → Prop) (value : List (κ × A) → ℝ) (m : List (κ × A)) (b : ℝ) : Prop :=
  IsGreatest {v | ∃ m', Alike same m m' ∧ value m' = v} b

/-- The optimizer ends well from `m`, at a maximum. -/
def Converges (same : A → A → Prop) (value : List (κ × A) → ℝ)
    (fit : List (κ × A) → Fit (List (κ × A))) (m : List (κ × A)) : Prop :=
  ∃ m', fit m = .done m' ∧ Alike same m m' ∧ Best same value m (value m')

/-- However it ends, the optimizer changes only what fits change. -/
def Careful (same : A → A → Prop) (fit : List (κ × A) → Fit (List (κ × A))) : Prop :=
  ∀ m m', (fit m = .done m' ∨ fit m = .fails m' ∨ fit m = .dies m') → Alike same m m'

/-- The projection that the keywords of an image describe. -/
def projOf (im : Image) : Proj :=
  ⟨im.ctype1.drop 5, im.crpix, im.crval, im.cdelt, ['G', 'L', 'O', 'N'].isPrefixOf im.ctype1⟩

end Verif.TsMap.Spec
