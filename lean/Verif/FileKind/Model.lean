import Verif.Basic
import Verif.FileKind.Types
import Mathlib.Algebra.Order.Group.Abs
/-
How the kind of a map file is found: `checkProjectionMethod`, `readCountsMap`, `readBinnedExposure` and
`checkExposureMap` of `AppHelpers`, and `WcsMapLibrary::wcsmap`.

Simplifications.  A file that cannot be opened has no primary image; opening it throws.  Reading the
contents of a map of the right kind succeeds; only the kind of the extension that is opened matters.  The
walk along the edge of a counts map is a given result (its model is `Verif.Cuts`).
-/
namespace Verif.FileKind
open Verif

/-- `pixtype.find("HEALPIX") == 0`, AppHelpers.cxx:1047; without the keyword `pixtype` is empty. -/
def isHealpix (p : Option String) : Bool :=
  match p with
  | some s => "HEALPIX".toList.isPrefixOf s.toList
  | none => false

/-- `checkProjectionMethod`, AppHelpers.cxx:1017-1055. -/
def projection (f : File) (hpxExt : String) : Res Method :=
  match f.primary with
  | none => .throws
  | some naxis =>
    if naxis ≥ 2 then .ok .wcs
    else
      match f.ext (if hpxExt = "" then "SKYMAP" else hpxExt) with
      | none => .throws
      | some (.table p) => if isHealpix p then .ok .hpx else .ok .unknown
      | some (.image _) => .ok .unknown

/-- The map that is made, AppHelpers.cxx:1061-1076, 1083-1098: its kind, or an error. -/
def recognised : Method → Res Method
  | .wcs => .ok .wcs
  | .hpx => .ok .hpx
  | .unknown => .throws

/-- `readCountsMap`, AppHelpers.cxx:1058-1077. -/
def readCountsMap (f : File) : Res Method := do
  let m ← projection f "SKYMAP"
  recognised m

/-- `readBinnedExposure`, AppHelpers.cxx:1080-1099. -/
def readExposure (f : File) : Res Method := do
  let m ← projection f "HPXEXPOSURES"
  recognised m

/-- `WcsMap2(filename, extension)`, WcsMap2.cxx:147-168: an image with two axes is needed. -/
def openWcs (f : File) (e : String) : Res Method :=
  if e = "" then
    match f.primary with
    | some n => if n ≥ 2 then .ok .wcs else .throws
    | none => .throws
  else
    match f.ext e with
    | some (.image n) => if n ≥ 2 then .ok .wcs else .throws
    | _ => .throws

/-- `wcsmap` for a map that is not in the library, WcsMapLibrary.cxx:43-62. -/
def libraryMap (f : File) (e : String) : Res Method := do
  match ← projection f e with
  | .wcs => openWcs f e
  | .hpx => .ok .hpx
  | .unknown => .throws

open Classical in
/-- `m_allSky` of an exposure map that was read, BinnedExposure.cxx:93-97. -/
noncomputable def allSky (lon lat : Axis) : Bool :=
  decide (|lon.cdelt * lon.n| ≥ 360 ∧ |lat.cdelt * lat.n| ≥ 180)

/-- `allSky()` of a map of this kind, BinnedExposure.cxx:93-97, BinnedHealpixExposure.cxx:208-212. -/
noncomputable def flagged (m : Method) (lon lat : Axis) : Bool :=
  match m with
  | .hpx => true
  | _ => allSky lon lat

/-- `checkExposureMap`, AppHelpers.cxx:920-958: `walk` is the result of the walk along the edge. -/
noncomputable def checkExposure (cmap emap : File) (walk : Res Unit) (lon lat : Axis) : Res Unit := do
  let c ← readCountsMap cmap
  let e ← readExposure emap
  match c with
  | .wcs => walk
  | .hpx => if flagged e lon lat then .ok () else .throws
  | .unknown => .throws

end Verif.FileKind
