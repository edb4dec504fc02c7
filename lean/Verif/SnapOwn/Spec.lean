import Verif.SnapOwn.Types
/-
What a user expects of the memory of snapshots.
-/
namespace Verif.SnapOwn.Spec

/-- No parameter exists beyond the next address. -/
def Sound (h : Heap) : Prop := ∀ a, h.next ≤ a → h.cell a = none

/-- All parameters of a source exist. -/
def Alive (h : Heap) (s : Src) : Prop :=
  (∃ v, h.cell s.norm = some v) ∧ (∀ p ∈ s.spec, ∃ v, h.cell p.2 = some v) ∧
    ∀ p ∈ s.spat, ∃ v, h.cell p.2 = some v

/-- Two lists of parameters agree in names and values, in two states of the memory. -/
def Agree (h : Heap) (l : Params) (h' : Heap) (l' : Params) : Prop :=
  l.map (fun p => (p.1, h.cell p.2)) = l'.map (fun p => (p.1, h'.cell p.2))

/-- A snapshot holds the parameters of a source. -/
def Holds (h : Heap) (s : Src) (h' : Heap) (t : Snap) : Prop :=
  h'.cell t.norm = h.cell s.norm ∧ Agree h s.spec h' t.spec ∧ Agree h s.spat h' t.spat

end Verif.SnapOwn.Spec
