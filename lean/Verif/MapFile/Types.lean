/-
What the model and the specification of the files with source maps share.
-/
namespace Verif.MapFile

/-- The kinds of sources, Source.h. -/
inductive Kind where
  | point
  | diffuse
  | composite
  deriving DecidableEq

/-- A file with source maps: does its first image hold the counts, the extension
`__weights__`, the extension `__FIXED__`, the tables called `__FIXED_PAR__` in their order, and
the extension named after each source. -/
structure File (ν ι π : Type) where
  counts : Bool
  weights : Option ι
  total : Option ι
  pars : List π
  map : ν → Option ι

/-- What does not change: the sources of the model in the order of their names, their kind,
which have a fixed spectrum, the image the program computes for a source, the image of a range of
planes, the settings `load_existing_srcmaps`, `computePointSources`, `save_all_srcmaps`, the
weights, the name of the numbered part of a file, the sum of the given images for the given
parameters. -/
structure Env (φ ν ι π : Type) where
  srcs : List ν
  kind : ν → Kind
  fixed : ν → Bool
  own : ν → ι
  part : ν → Int → Int → ι
  loadExisting : Bool
  computePoint : Bool
  saveAll : Bool
  weights : Option ι
  split : φ → Nat → φ
  total : π → List ι → ι

/-- The calls.  An absent file name is the empty string. -/
inductive Op (φ ν ι π : Type) where
  /-- use the map of a source -/
  | use (n : ν)
  /-- `setSourceMapImage` -/
  | setImage (n : ν) (i : ι)
  /-- `loadSourceMap(n, recreate)` -/
  | load (n : ν) (recreate : Bool)
  /-- `loadSourceMaps(recreate, saveMaps)` -/
  | loadAll (recreate saveMaps : Bool)
  /-- `clear_model(force)` of the map of a source -/
  | drop (n : ν) (force : Bool)
  /-- `eraseSourceMap` -/
  | erase (n : ν)
  /-- `saveSourceMaps(filename, replace, includecountsmap)` -/
  | save (f : Option φ) (replace counts : Bool)
  /-- `saveSourceMap_partial` -/
  | savePart (f : φ) (n : ν) (kmin kmax : Int) (replace : Bool)
  /-- the parameters of the fixed sources are changed -/
  | setPar (p : π)
  /-- `saveTotalFixedSourceMap(replace)` -/
  | saveTotal (replace : Bool)

end Verif.MapFile
