/-
Types shared by the model and the specification of the replacing of sources in a binned
likelihood.
-/
namespace Verif.Readd

/-- A source object: its address, where (and what) it is on the sky, whether all parameters of its
spectrum are fixed. -/
structure Src (σ : Type) where
  id : Nat
  shape : σ
  fixed : Bool

/-- What the user does.  `clone` is the address of the copy that goes into the model, if one is
made. -/
inductive Op (ν σ : Type) where
  /-- `addSource(src, fromClone, 0, loadMap)` -/
  | add (n : ν) (s : Src σ) (clone : Option Nat) (load : Bool)
  /-- `addSource(src, fromClone, createExternalSourceMap(src))` -/
  | addNew (n : ν) (s : Src σ) (clone : Option Nat)
  /-- `deleteSource(n)` -/
  | delete (n : ν)
  /-- the removal of the test source of a scan -/
  | remove (n : ν)
  /-- `eraseSourceMap(n)` -/
  | erase (n : ν)
  /-- `getSource(n)->moveSource(d)` -/
  | move (n : ν) (d : σ)
  /-- the counts of a source are asked for -/
  | use (n : ν)
  /-- `computeModelMap(n)` -/
  | compute (n : ν)

/-- The options: `save_all_srcmaps`, `use_single_fixed_map`, `delete_local_fixed`. -/
structure Cfg where
  saveAll : Bool
  single : Bool
  dropLocal : Bool

end Verif.Readd
