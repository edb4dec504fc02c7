import Verif.ExpCube.Types
import Verif.Vec
import Mathlib.Analysis.SpecialFunctions.Sqrt
import Mathlib.Data.List.Chain
/-
What a user expects of gtexpcube2, stated without reference to the code.
-/
namespace Verif.ExpCube.Spec
open Verif.ExpCube Verif.Vec

/-- Bins of a table that make sense: there are some, each begins where the one before ends. -/
structure Good (rows : List Row) : Prop where
  some : rows ≠ []
  joined : rows.IsChain (fun a b => a.emax = b.emin)
  positive : ∀ r ∈ rows, 0 < r.emin ∧ r.emin < r.emax

/-- The energies (MeV) are the bounds of the bins (keV). -/
def Bounds (rows : List Row) (es : List ℝ) : Prop :=
  es.length = rows.length + 1 ∧
    es.zip es.tail = rows.map (fun r => (r.emin / 1000, r.emax / 1000))

/-- The energies go from `a` to `b` in `n` equal logarithmic steps. -/
structure LogGrid (a b : ℝ) (n : Nat) (es : List ℝ) : Prop where
  number : es.length = n + 1
  first : val es 0 = a
  last : val es n = b
  step : ∀ k < n, val es (k + 1) / val es k = val es 1 / val es 0

/-- Energies that make sense. -/
structure Grid (es : List ℝ) : Prop where
  two : 2 ≤ es.length
  positive : ∀ e ∈ es, 0 < e
  increasing : es.Pairwise (· < ·)

/-- The energies with `b` more bins below and above, as wide as the first and the last one. -/
structure Wider (es : List ℝ) (b : Nat) (w : List ℝ) : Prop where
  number : w.length = es.length + 2 * b
  middle : (w.drop b).take es.length = es
  below : ∀ j < b, val w (j + 1) / val w j = val es 1 / val es 0
  above : ∀ j < b, val w (b + es.length + j) / val w (b + es.length + j - 1) =
    val es (es.length - 1) / val es (es.length - 2)

/-- The geometric means of the bounds of the bins. -/
def Means (w ms : List ℝ) : Prop :=
  ms.length + 1 = w.length ∧ ∀ k < ms.length, val ms k = Real.sqrt (val w k * val w (k + 1))

/-- The energies of the exposure map for these bin bounds. -/
def Energies (es : List ℝ) (b : Nat) (center : Bool) (out : List ℝ) : Prop :=
  ∃ w, Wider es b w ∧ if center = true then Means w out else out = w

/-- The user asks for energies of their own. -/
def Own (p : Pars) : Prop :=
  match p.ebin with
  | .file (some _) => True
  | .log (some _) (some _) (some _) => True
  | _ => False

/-- These energies make sense. -/
def OwnGood (d : Disk) (p : Pars) : Prop :=
  match p.ebin with
  | .file (some f) => ∃ rows, d.bins f = some rows ∧ Good rows
  | .log (some a) (some b) (some n) => 0 < a ∧ a < b ∧ 0 < n
  | _ => False

/-- The bounds of the bins are those the user asks for. -/
def OwnEnergies (d : Disk) (p : Pars) (es : List ℝ) : Prop :=
  match p.ebin with
  | .file (some f) => ∃ rows, d.bins f = some rows ∧ Bounds rows es
  | .log (some a) (some b) (some n) => LogGrid a b n es
  | _ => False

/-- The bounds of the bins: those asked for, else those of the counts map. -/
def Asked (d : Disk) (p : Pars) (rows : List Row) (es : List ℝ) : Prop :=
  (Own p → OwnEnergies d p es) ∧ (¬ Own p → Bounds rows es)

/-- They make sense. -/
def AskedGood (d : Disk) (p : Pars) (rows : List Row) : Prop :=
  (Own p → OwnGood d p) ∧ (¬ Own p → Good rows)

/-- The user gives the geometry: this many pixels of this size around this position. -/
def OwnSky (p : Pars) (s : Sky) : Prop :=
  p.nxpix = some s.n0 ∧ p.nypix = some s.n1 ∧ p.xref = some s.crval.1 ∧ p.yref = some s.crval.2 ∧
    p.binsz = some s.cdelt.2 ∧ s.cdelt.1 = - s.cdelt.2 ∧
    s.crpix = (((s.n0 : ℝ) + 1) / 2, ((s.n1 : ℝ) + 1) / 2) ∧
    s.rot = p.axisrot ∧ s.proj = p.proj ∧ s.gal = p.gal

/-- Something the geometry needs is missing. -/
def NoSky (p : Pars) : Prop :=
  p.nxpix = none ∨ p.nypix = none ∨ p.binsz = none ∨ p.xref = none ∨ p.yref = none

/-- Square pixels, longitudes to the left, and the reference pixel in the middle. -/
def Regular (s : Sky) : Prop :=
  0 ≤ s.cdelt.2 ∧ s.cdelt.1 = - s.cdelt.2 ∧
    s.crpix = (((s.n0 : ℝ) + 1) / 2, ((s.n1 : ℝ) + 1) / 2)

end Verif.ExpCube.Spec
