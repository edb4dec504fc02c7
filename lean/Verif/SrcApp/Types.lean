import Verif.MapFile.Types
/-
What the model and the specification of gtsrcmaps share.  The files and the sources are those of
`Verif.MapFile.Types`.
-/
namespace Verif.SrcApp

/-- The parameters of the program that matter for its files, pfiles/gtsrcmaps.par: `cmap`, `outfile`,
`clobber`, `copyall`, `ptsrc`. -/
structure Pars (φ : Type) where
  cmap : φ
  out : φ
  clobber : Bool
  copyall : Bool
  ptsrc : Bool

/-- How a run ends: it refuses to start or stops with an error, its behaviour is undefined, or it
comes to its end. -/
inductive End where
  | fails
  | undefined
  | done
  deriving DecidableEq

end Verif.SrcApp
