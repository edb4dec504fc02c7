import Verif.Livetime.Model
/-
What gtltcube reads and writes.
-/
namespace Verif.LtCube
open Verif.Livetime

/-- A cut of the event files on good time intervals: the intervals and the extreme times that
the library gives for them. -/
structure GtiCut where
  ivals : List (ℝ × ℝ)
  lo : ℝ
  hi : ℝ

/-- The parameters of a run.  `events` are the cuts on good time intervals of the event files,
`none` if no event file is named; the parameters `tmin`, `tmax` are for that case. -/
structure Call where
  events : Option (List GtiCut)
  tmin : ℝ
  tmax : ℝ
  sc : List Nat
  out : Nat
  clobber : Bool
  zmin : ℝ
  zmax : ℝ

/-- A livetime cube: the livetimes filled in, the limits of the zenith angle used in doing so,
and of the header the times and the keywords `ZENMIN`, `ZENMAX` if present. -/
structure Cube (δ : Type) where
  fills : List (Fill δ)
  zenUsed : ℝ × ℝ
  tstart : ℝ
  tstop : ℝ
  zenKeys : Option (ℝ × ℝ)

/-- The files by name: spacecraft files and livetime cubes. -/
structure World (δ : Type) where
  sc : Nat → Option (List (Row δ))
  cubes : Nat → Option (Cube δ)

/-- How a run ends: normally, with the message about `clobber`, with an exception, or in
undefined behaviour. -/
inductive Outcome
  | done
  | refused
  | failed
  | undefined
  deriving DecidableEq

end Verif.LtCube
