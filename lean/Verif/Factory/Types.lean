/-!
# The source factory: sources and calls

The calls a client can make on a `SourceFactory` and on the sources it holds.  A source the client has is named by the number of
the variable it is kept in: variables are filled in order, by making a source, by `create` and by `releaseSource`.
-/

namespace Verif.Factory

/-- A source: its own name and everything else about it. -/
structure Src (N V : Type) where
  name : N
  val : V
deriving DecidableEq, Repr

/-- The calls. -/
inductive Op (N V : Type)
  /-- The client makes a source. -/
  | make (s : Src N V)
  /-- The client looks at its source `i`. -/
  | look (i : Nat)
  /-- The client changes its source `i`. -/
  | edit (i : Nat) (s : Src N V)
  /-- The client deletes its source `i`. -/
  | drop (i : Nat)
  /-- A copy of the prototype called `n`. -/
  | create (n : N)
  /-- The prototype called `n` itself, which leaves the factory. -/
  | release (n : N)
  /-- Source `i`, or a copy of it, becomes the prototype called `n`. -/
  | add (n : N) (i : Nat) (fromClone : Bool)
  /-- Source `i`, or a copy of it, takes the place of the prototype of its name. -/
  | replace (i : Nat) (fromClone : Bool)
  /-- The names of the prototypes. -/
  | names
  /-- A model file is read that defines these sources. -/
  | load (srcs : List (Src N V))
  /-- A composite source is read that is made of these. -/
  | nest (srcs : List (Src N V))
  /-- The factory is destroyed (and another one made). -/
  | close

/-- What a call gives back: nothing, an exception, a source, names, the parts of a composite source. -/
inductive Out (N V : Type)
  | done
  | threw
  | source (s : Src N V)
  | names (l : List N)
  | parts (l : List (Src N V))
deriving DecidableEq, Repr

end Verif.Factory
