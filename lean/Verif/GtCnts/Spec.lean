import Verif.GtCnts.Types
import Verif.CntMap.Spec
/-
What a user expects of gtcntsmap, stated without reference to the code.
-/
namespace Verif.GtCnts.Spec
open Verif.CntMap Verif.CntMap.Spec

/-- The energy bins the user asks for: between `n` energies with equal ratios, or those of a file. -/
def Wants (d : Disk) (p : Pars) (l : List Interval) : Prop :=
  match p.alg with
  | .log a b n => 0 < a ∧ a < b ∧ 2 ≤ n ∧ (l.length : Int) + 1 = n ∧
      ∀ k, (hk : k < l.length) → l[k].lo = a * (b / a) ^ ((k : ℝ) / l.length) ∧
        l[k].hi = a * (b / a) ^ (((k : ℝ) + 1) / l.length)
  | .file f => d.bins f = some (l.map fun b => (b.lo, b.hi)) ∧ l ≠ [] ∧ (∀ b ∈ l, b.lo < b.hi) ∧
      l.IsChain (fun a b => a.hi ≤ b.lo)

/-- All files are there, with an extension `EVENTS`, and agree with each other; the output file can be
written. -/
def Fine (d : Disk) (p : Pars) (ev : String → List Event) (rs : List (ℝ × ℝ)) : Prop :=
  p.files ≠ [] ∧ (∀ f ∈ p.files, d.events f "events" = some (ev f)) ∧
    (∀ f ∈ p.files, d.ranges f p.evtable = some rs) ∧
    (∀ f ∈ p.files, ∀ g ∈ p.files, d.same p.evtable f g = true) ∧
    (p.clobber = true ∨ d.present p.outfile = false) ∧ 0 < p.nra ∧ 0 < p.ndec

/-- An energy in all of the selected ranges. -/
def Selected (rs : List (ℝ × ℝ)) (e : ℝ) : Prop := ∀ r ∈ rs, r.1 ≤ e ∧ e ≤ r.2

/-- All bins are in the selected ranges. -/
def Inside (rs : List (ℝ × ℝ)) (l : List Interval) : Prop :=
  ∀ b ∈ l, ∀ e, b.lo ≤ e → e ≤ b.hi → Selected rs e

/-- Coordinate `c` is as far from the first edge as from the last edge of `n` pixels. -/
def Middle (n : Nat) (c : ℝ) : Prop := c - 1 / 2 = (n : ℝ) + 1 / 2 - c

/-- The direction asked for is in the middle of the map, longitude grows to the left. -/
def Located (p : Pars) (g : Geom) : Prop :=
  g.proj = p.proj ∧ g.gal = p.lb ∧ g.rot = 0 ∧ g.cdelt = (-p.sx, p.sy) ∧
    Middle p.nra g.crpix.1 ∧ Middle p.ndec g.crpix.2 ∧
    g.crval = if p.lb then (p.glon, p.glat) else (p.ra, p.dec)

end Verif.GtCnts.Spec
