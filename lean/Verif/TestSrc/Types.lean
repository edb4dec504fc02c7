/-!
# The test source of a scan: the calls
-/

namespace Verif.TestSrc

/-- The calls of a client that has a source model and a scanner for it.  `N` are names, `D` is what
a source consists of (position and spectrum). -/
inductive Op (N D : Type)
  /-- A source is added to the model. -/
  | add (n : N) (d : D)
  /-- A source is taken out of the model and destroyed. -/
  | remove (n : N)
  /-- A source of the model is looked at. -/
  | ask (n : N)
  /-- The test source shall be a point source with a power law. -/
  | powerlaw (d : D)
  /-- The test source shall be a point source with a given spectrum. -/
  | point (d : D)
  /-- The test source shall be the source of this name in the model. -/
  | byName (n : N)
  /-- The test source shall be this one, to be destroyed by the scanner or not. -/
  | give (n : N) (d : D) (owned : Bool)
  /-- The test source is used. -/
  | use

/-- What the client sees of a call. -/
inductive Obs (D : Type)
  | nothing
  | saw (d : D)
  | failed

end Verif.TestSrc
