import Verif.EvRead.Types
import Verif.Cuts.Spec
import Mathlib.Analysis.SpecialFunctions.Trigonometric.Basic
/-
What a user expects of the reading of events, stated without reference to the code.
-/
namespace Verif.EvRead.Spec
open Verif.EvRead

/-- Bit `k` is set in both masks. -/
def Common (a b k : Nat) : Prop := a.testBit k = true ∧ b.testBit k = true

/-- `t` is the type of the event: the highest of the selected types it is of; the conversion type
if the file knows of no types. -/
def TypeOf (hasTypes : Bool) (mask : Nat) (r : Row) (t : Nat) : Prop :=
  if hasTypes then Common r.type mask t ∧ ∀ j, Common r.type mask j → j ≤ t else t = r.conv

/-- `e` is the efficiency for the event. -/
def EffOf (irf : Irf) (ltfrac : ℝ → ℝ) (r : Row) (e : ℝ) : Prop :=
  (irf.eff = none ∧ e = 1) ∨
  ∃ f, irf.eff = some f ∧ e = f r.energy (ltfrac r.time) r.time ∧ 0 ≤ e

/-- The event in memory is the row of the file, with the response functions `irfs` of its type. -/
structure ReadAs (irfs : Nat → Option Irf) (ltfrac : ℝ → ℝ) (hasTypes : Bool) (mask : Nat)
    (r : Row) (e : Ev) : Prop where
  ra : e.ra = r.ra
  dec : e.dec = r.dec
  energy : e.energy = r.energy
  time : e.time = r.time
  zenith : e.muZenith = Real.cos (r.zenith * Real.pi / 180)
  cls : e.cls = r.cls
  type : TypeOf hasTypes mask r e.type
  eff : ∃ irf, irfs e.type = some irf ∧ EffOf irf ltfrac r e.efficiency

/-- The library has response functions for all types in a mask under the name. -/
def Complete (lib : Lib) (name : Verif.Cuts.Name) (mask : Nat) : Prop :=
  ∃ ns, lib.ids name = some ns ∧
    ∀ k, k < 32 → mask.testBit k = true → ∃ n ∈ ns, (lib.create n).id = k

/-- Efficiencies are not negative. -/
def Efficient (lib : Lib) : Prop :=
  ∀ n f, (lib.create n).eff = some f → ∀ a b c, 0 ≤ f a b c

end Verif.EvRead.Spec
