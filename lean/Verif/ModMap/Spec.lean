import Verif.ModMap.Types
import Verif.Vec
/-
What a user expects of maps of model counts, stated without reference to the code.
-/
namespace Verif.ModMap.Spec
open Verif.ModMap Verif.Vec

/-- Numbers of pixels and energy bins. -/
def npix : Cmap → Nat
  | .wcs nx ny _ => nx * ny
  | .hpx p _ => p.n

def nener : Cmap → Nat
  | .wcs _ _ ne => ne
  | .hpx _ e => e.n

/-- Sizes that make sense. -/
def Sized (c : Cmap) (m : List ℝ) : Prop := 0 < npix c ∧ 0 < nener c ∧ m.length = npix c * nener c

/-- Model counts of pixel `j` and energy bin `k`. -/
noncomputable def counts (c : Cmap) (m : List ℝ) (j k : Nat) : ℝ := val m (k * npix c + j)

/-- The file has the counts of every energy bin. -/
def IsCube (c : Cmap) (m : List ℝ) : Out → Prop
  | .image dims data => (∃ nx ny ne, c = .wcs nx ny ne ∧ dims = [nx, ny, ne]) ∧ data = m
  | .columns cols => cols.length = nener c ∧ ∀ k < nener c, ∃ col, cols[k]? = some col ∧
      col.length = npix c ∧ ∀ j < npix c, val col j = counts c m j k

/-- The file has the values `v` of the pixels. -/
def IsMap (c : Cmap) (v : Nat → ℝ) : Out → Prop
  | .image dims data => (∃ nx ny ne, c = .wcs nx ny ne ∧ dims = [nx, ny]) ∧ data.length = npix c ∧
      ∀ j < npix c, val data j = v j
  | .columns cols => ∃ col, cols = [col] ∧ col.length = npix c ∧ ∀ j < npix c, val col j = v j

/-- Counts of a pixel, of all energy bins, and of all but the first. -/
noncomputable def total (c : Cmap) (m : List ℝ) (j : Nat) : ℝ := ∑ k ∈ Finset.range (nener c), counts c m j k

noncomputable def rest (c : Cmap) (m : List ℝ) (j : Nat) : ℝ :=
  ∑ k ∈ Finset.range (nener c - 1), counts c m j (k + 1)

/-- The type of output is this word, in upper or lower case. -/
def Reads (t word : String) : Prop :=
  List.Forall₂ (fun a b => a = b ∨ a = b.toLower) t.toList word.toList

open Classical in
/-- How many of the calls ask for sums over the energies. -/
noncomputable def sums (ts : List String) : Nat := ts.countP fun t => decide (Reads t "CMAP")

end Verif.ModMap.Spec
