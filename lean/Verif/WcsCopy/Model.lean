import Verif.Basic
import Verif.WcsCopy.Types

/-!
# Copying the projection to the extensions: the program

`SourceMapCache::copyWcsToExtensions`, src/SourceMapCache.cxx:598-676, called at the end of
gtsrcmaps.  Setting a keyword never fails.  A part is opened by its identifier, which finds the first
part with it.
-/

namespace Verif.WcsCopy

variable {ν δ : Type}

/-- The keywords, SourceMapCache.cxx:605-611. -/
def wcsKeys : List String :=
  ["CTYPE1", "CTYPE2", "CTYPE3", "CRPIX1", "CRPIX2", "CRPIX3", "CRVAL1", "CRVAL2", "CRVAL3",
   "CDELT1", "CDELT2", "CDELT3", "CROTA2", "EQUINOX", "RADESYS"]

/-- Reading a number: strings are converted if they look like one (`conv`). -/
def getNum (conv : String → Option ν) (h : Header ν) (k : String) : Option ν :=
  match h k with
  | none => none
  | some (.num x) => some x
  | some (.str s) => conv s

/-- Reading a string, tried only after reading a number has failed. -/
def getStr (h : Header ν) (k : String) : Option String :=
  match h k with
  | some (.str s) => some s
  | _ => none

/-- `numericValues`, SourceMapCache.cxx:617-621. -/
def numericValues (conv : String → Option ν) (h : Header ν) : List (String × ν) :=
  wcsKeys.filterMap (fun k => (getNum conv h k).map (fun x => (k, x)))

/-- `stringValues`, SourceMapCache.cxx:622-630. -/
def stringValues (conv : String → Option ν) (h : Header ν) : List (String × String) :=
  wcsKeys.filterMap (fun k =>
    match getNum conv h k with
    | some _ => none
    | none => (getStr h k).map (fun s => (k, s)))

/-- Setting a keyword. -/
def setKey (h : Header ν) (k : String) (v : Val ν) : Header ν := fun k' => if k' = k then some v else h k'

/-- The loop over the numbers, SourceMapCache.cxx:658-662. -/
def setNums : List (String × ν) → Header ν → Header ν
  | [], h => h
  | (k, x) :: l, h => setNums l (setKey h k (.num x))

/-- The loop over the strings, SourceMapCache.cxx:665-669. -/
def setStrs : List (String × String) → Header ν → Header ν
  | [], h => h
  | (k, s) :: l, h => setStrs l (setKey h k (.str s))

/-- Opening a part by its identifier and setting its keywords, SourceMapCache.cxx:652-674; a part
that is no image is left alone. -/
def editFirst (e : String) (f : Header ν → Header ν) : File ν δ → File ν δ
  | [] => []
  | u :: l =>
    if u.id = e then (if u.image then { u with header := f u.header } else u) :: l
    else u :: editFirst e f l

/-- The identifiers passed over, SourceMapCache.cxx:643-649. -/
def skipped (e : String) : Bool :=
  e = "" || e = "GTI" || e = "EBOUNDS" || e = "ENERGIES" || e = "EVENTS"

/-- The loop over the parts, SourceMapCache.cxx:639-675. -/
def copyLoop (f : Header ν → Header ν) : List String → File ν δ → File ν δ
  | [], fl => fl
  | e :: es, fl => copyLoop f es (if skipped e then fl else editFirst e f fl)

/-- `copyWcsToExtensions`, SourceMapCache.cxx:598-676. -/
def copyWcs (conv : String → Option ν) : File ν δ → Res (File ν δ)
  | [] => .throws
  | p :: l =>
    if p.image then
      let nums := numericValues conv p.header
      let strs := stringValues conv p.header
      .ok (copyLoop (fun h => setStrs strs (setNums nums h)) ((p :: l).map (·.id)) (p :: l))
    else .throws

end Verif.WcsCopy
