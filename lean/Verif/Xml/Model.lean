import Mathlib.Algebra.Order.Field.Basic
import Verif.Basic
import Verif.StdMap
import Verif.Xml.Types
/-
Model of writing a source model to a file and of reading it: src/SourceModelBuilder.cxx,
src/SourceFactory.cxx and the reading part of src/SourceModel.cxx.

Elements are trees here; the text of the file is in `Verif.Xml.Text`.  `rapidxml` and
`optimizers` belong to other packages.  Assumed of them: `first_attribute` and `first_node`
give the first attribute or element with the name; `Function::parameter(name)` throws if
there is no such parameter; `Parameter::extractDomData` takes value, scale, bounds and the
free flag from the attributes `value`, `scale`, `min`, `max` and `free`, and throws if one of
the numbers is missing or no number; `Function::setParams` of a list replaces the parameters
one by one and throws if the number of parameters differs.  Reading the files of maps and
tables is not modelled: the name of the file stands for its content.
-/
namespace Verif.Xml

variable {K : Type}

/-! ### Attributes and elements -/

/-- `first_attribute(name)`: the value of the first attribute with the name. -/
def attr? (n : Node) (a : String) : Option String :=
  (n.attrs.find? (fun x => x.1 == a)).map Prod.snd

/-- `getAttributeValue`, SourceFactory.cxx:142-152. -/
def attrD (n : Node) (a d : String) : String := (attr? n a).getD d

/-- `getAttributeValueAsDouble`, SourceFactory.cxx:154-165: the default if the attribute is
missing, empty or no number. -/
def attrNum (E : Env K) (n : Node) (a : String) (d : K) : K :=
  if attrD n a "" = "" then d else (E.stod (attrD n a "")).getD d

/-- `collectChildren`, SourceFactory.cxx:167-180 and SourceModel.cxx:97-108. -/
def kidsOf (n : Node) (t : String) : List Node := n.kids.filter (fun k => k.tag == t)

/-! ### Writing -/

/-- `addAttribute` of a bool, SourceModelBuilder.cxx:76-81, and of the flag of a parameter,
line 113. -/
def flagText (b : Bool) : String := if b then "1" else "0"

/-- One round of `appendParameterNodes`, SourceModelBuilder.cxx:106-115. -/
def parNode (E : Env K) (p : Par K) : Node :=
  .mk "parameter" [("name", p.name), ("value", E.fmt p.value), ("scale", E.fmt p.scale),
    ("min", E.fmt p.lo), ("max", E.fmt p.hi), ("free", flagText p.free)] []

/-- The types of spectra whose file is written, SourceModelBuilder.cxx:213-236: a
`DMFitFunction`, a `FileFunction`, and a `ScaleFactor` around a `FileFunction`.  The C++ class
is taken to be determined by the generic name. -/
def fileTypes : List String := ["DMFitFunction", "FileFunction", "ScaleFactor::FileFunction"]

/-- `spectralPart`, SourceModelBuilder.cxx:200-251. -/
def spectrumNode (E : Env K) (s : Spectrum K) : Node :=
  .mk "spectrum"
    ([("type", s.type)]
      ++ (if s.type ∈ fileTypes then [("file", s.file)] else [])
      ++ (match s.scaling with | some f => [("scaling_file", f)] | none => []))
    (s.pars.map (parNode E))

/-- The parameters of the position of a point source, SkyDirFunction.cxx:29-38. -/
def posPars [NatCast K] [Neg K] [Zero K] [One K] (ra dec : K) : List (Par K) :=
  [⟨"RA", ra, 1, -((360 : ℕ) : K), ((360 : ℕ) : K), false, 0⟩,
   ⟨"DEC", dec, 1, -((90 : ℕ) : K), ((90 : ℕ) : K), false, 0⟩]

/-- The types of spatial functions whose file is written, SourceModelBuilder.cxx:273-282. -/
def mapTypes : List String := ["SpatialMap", "MapCubeFunction", "RadialProfile"]

mutual
/-- `likelihoodSource` with `addSpatialPart` and `addComposite`,
SourceModelBuilder.cxx:178-198, 253-312.  `m_xmlFile` of a composite source is always empty:
nothing sets it (CompositeSource.cxx:15-45, CompositeSource.h:73, 283). -/
def srcNode [NatCast K] [Neg K] [Zero K] [One K] (E : Env K) : Src K → Node
  | .point name spec _ ra dec =>
    .mk "source" [("name", name), ("type", "PointSource")]
      [spectrumNode E spec,
       .mk "spatialModel" [("type", "SkyDirFunction")] ((posPars ra dec).map (parNode E))]
  | .diffuse name spec _ type pars file mapInt =>
    .mk "source" [("name", name), ("type", "DiffuseSource")]
      [spectrumNode E spec,
       .mk "spatialModel"
        ([("type", type)] ++ (if type ∈ mapTypes then [("file", file)] else [])
          ++ (if mapInt then [("map_based_integral", "true")] else []))
        (pars.map (parNode E))]
  | .composite name spec _ members =>
    .mk "source" [("name", name), ("type", "CompositeSource")]
      [spectrumNode E spec, .mk "source_library" [] (srcNodes E members)]
/-- `append_source_model`, SourceModelBuilder.cxx:318-322. -/
def srcNodes [NatCast K] [Neg K] [Zero K] [One K] (E : Env K) : List (Src K) → List Node
  | [] => []
  | s :: ss => srcNode E s :: srcNodes E ss
end

/-- `SourceModel::writeXml`, SourceModel.cxx:614-620, with the constructor
SourceModelBuilder.cxx:150-159: the element of the whole library. -/
def libNode [NatCast K] [Neg K] [Zero K] [One K] (E : Env K) (funcLib title : String)
    (ss : List (Src K)) : Node :=
  .mk "source_library"
    ((if funcLib = "" then [] else [("function_library", funcLib)]) ++ [("title", title)])
    (srcNodes E ss)

/-! ### Reading a function -/

/-- `extractDomData` on the parameter (assumed, see above). -/
def extract (E : Env K) (n : Node) (p : Par K) : Res (Par K) :=
  match (attr? n "value").bind E.stod, (attr? n "scale").bind E.stod,
      (attr? n "min").bind E.stod, (attr? n "max").bind E.stod with
  | some v, some s, some lo, some hi =>
    .ok { p with value := v, scale := s, lo := lo, hi := hi,
                 free := attrD n "free" "" == "1" || attrD n "free" "" == "true" }
  | _, _, _, _ => .throws

/-- `func->parameter(name).extractDomData(node)`. -/
def setPar (E : Env K) (n : Node) (name : String) : List (Par K) → Res (List (Par K))
  | [] => .throws
  | p :: ps =>
    if p.name = name then do
      let p' ← extract E n p
      pure (p' :: ps)
    else do
      let ps' ← setPar E n name ps
      pure (p :: ps')

/-- The loop over the parameter elements, SourceFactory.cxx:402-405 and 478-481. -/
def setPars (E : Env K) : List Node → List (Par K) → Res (List (Par K))
  | [], ps => .ok ps
  | n :: ns, ps => do
    let ps' ← setPar E n (attrD n "name" "") ps
    setPars E ns ps'

/-- `name.find(prefix) == 0` and `name.substr(prefix length)`: the rest of the name after the
prefix, if it begins with it. -/
def afterPrefix (p : List Char) (s : String) : Option (List Char) :=
  if p.isPrefixOf s.toList then some (s.toList.drop p.length) else none

/-- The digits at the beginning of a text, as a number. -/
def digitsVal : Nat → List Char → Nat
  | acc, [] => acc
  | acc, c :: cs => if c.isDigit then digitsVal (10 * acc + (c.toNat - 48)) cs else acc

/-- `std::atoi`: blanks, a sign, and the digits; 0 if there are none.  Overflow of `int` is
not modelled. -/
def atoi (cs : List Char) : Int :=
  match cs.dropWhile Char.isWhitespace with
  | '-' :: r => -(digitsVal 0 r : Int)
  | '+' :: r => digitsVal 0 r
  | r => digitsVal 0 r

/-- `idx = (size_t) atoi(..); if (idx >= v.size()) v.resize(idx + 1); v[idx] = x`,
SourceFactory.cxx:535-539, 542-548, 566-571, 574-580.  The index of `-1` is the largest
`size_t`: `idx + 1` is 0, the vector is emptied and written out of range.  Other negative
numbers make `resize` throw. -/
def growSet [Zero K] (v : List K) (i : Int) (x : K) : Res (List K) :=
  if i = -1 then .ub
  else if i < 0 then .throws
  else vset (if v.length ≤ i.toNat then vresize v (i.toNat + 1) 0 else v) i.toNat x

/-- `operator<<` of a `size_t`. -/
def dec (n : Nat) : List Char :=
  if n < 10 then [Char.ofNat (48 + n)] else dec (n / 10) ++ [Char.ofNat (48 + n % 10)]
termination_by n

/-- The name of a numbered parameter, e.g. MultipleBrokenPowerLaw.cxx:32-33. -/
def numbered (p : List Char) (i : Nat) : String := String.ofList (p ++ dec i)

/-- `addParam(name, value, free)` of `optimizers::Function`: scale 1, no error, the default
bounds. -/
def newPar [Zero K] [One K] (E : Env K) (name : String) (v : K) (free : Bool) : Par K :=
  ⟨name, v, 1, E.bounds.1, E.bounds.2, free, 0⟩

/-- The loop of `addParamsToMultipleBPL`, SourceFactory.cxx:524-550: normalization, photon
indices, break energies. -/
def mbplLoop [Zero K] [One K] [Mul K] (E : Env K) :
    List Node → K × List K × List K → Res (K × List K × List K)
  | [], s => .ok s
  | n :: ns, (norm, idx, brk) => do
    let name := attrD n "name" ""
    let norm' := if name = "Normalization" then attrNum E n "value" 1 else norm
    let idx' ← (match afterPrefix "Index".toList name with
      | some r => growSet idx (atoi r) (attrNum E n "value" 0)
      | none => .ok idx)
    let brk' ← (match afterPrefix "Break".toList name with
      | some r => growSet brk (atoi r) (attrNum E n "value" 0 * attrNum E n "scale" 1)
      | none => .ok brk)
    mbplLoop E ns (norm', idx', brk')

/-- The loop of `addParamsToPiecewisePL`, SourceFactory.cxx:558-582: dNdE and energies. -/
def piecewiseLoop [Zero K] [One K] [Mul K] (E : Env K) :
    List Node → List K × List K → Res (List K × List K)
  | [], s => .ok s
  | n :: ns, (dnde, ens) => do
    let name := attrD n "name" ""
    let dnde' ← (match afterPrefix "dNdE".toList name with
      | some r => growSet dnde (atoi r) 0
      | none => .ok dnde)
    let ens' ← (match afterPrefix "Energy".toList name with
      | some r => growSet ens (atoi r) (attrNum E n "value" 0 * attrNum E n "scale" 1)
      | none => .ok ens)
    piecewiseLoop E ns (dnde', ens')

/-- Whether each energy is larger than the one before it, MultipleBrokenPowerLaw.cxx:44-47
and PiecewisePowerLaw.cxx:51-54. -/
def increasing [LT K] [DecidableLT K] : List K → Bool
  | [] => true
  | [_] => true
  | a :: b :: l => decide (a < b) && increasing (b :: l)

/-- The parameters with numbers `0, 1, …` and the given values. -/
def numberedPars [Zero K] [One K] (E : Env K) (p : List Char) (free : Bool) :
    Nat → List K → List (Par K)
  | _, [] => []
  | i, v :: vs => newPar E (numbered p i) v free :: numberedPars E p free (i + 1) vs

/-- `MultipleBrokenPowerLaw::addParams`, MultipleBrokenPowerLaw.cxx:22-49. -/
def mbplAdd [Zero K] [One K] [LT K] [DecidableLT K] (E : Env K) (ps : List (Par K))
    (s : K × List K × List K) : Res (List (Par K) × List K) :=
  if s.2.1.length ≠ s.2.2.length + 1 then .throws
  else if increasing s.2.2 then
    .ok (ps ++ newPar E "Normalization" s.1 true :: numberedPars E "Index".toList true 0 s.2.1
      ++ numberedPars E "Break".toList false 0 s.2.2, s.2.2)
  else .throws

/-- `PiecewisePowerLaw::addParams` with the indices of SourceFactory.cxx:585-588,
PiecewisePowerLaw.cxx:27-56. -/
def piecewiseAdd [NatCast K] [Neg K] [Zero K] [One K] [LT K] [DecidableLT K] (E : Env K)
    (ps : List (Par K)) (s : List K × List K) : Res (List (Par K) × List K) :=
  if s.1.length ≠ s.2.length then .throws
  else if increasing s.2 then
    .ok (ps ++ newPar E "IndexL" (-((2 : ℕ) : K)) true
      :: newPar E "IndexH" (-((3 : ℕ) : K)) true
      :: numberedPars E "dNdE".toList true 0 s.1
      ++ numberedPars E "Energy".toList false 0 s.2, s.2)
  else .throws

/-- The special functions of `setSpectrum`, SourceFactory.cxx:469-475: the parameters that
are there before the values are read, and the energies kept besides. -/
def special [NatCast K] [Neg K] [Zero K] [One K] [Mul K] [LT K] [DecidableLT K] (E : Env K)
    (type : String) (ns : List Node) (ps : List (Par K)) : Res (List (Par K) × List K) :=
  if type = "MultipleBPL" then do
    let s ← mbplLoop E ns (1, [], [])
    mbplAdd E ps s
  else if type = "PiecewisePowerLaw" then do
    let s ← piecewiseLoop E ns ([], [])
    piecewiseAdd E ps s
  else .ok (ps, [])

/-- The three tests of the flags, SourceFactory.cxx:330-341, 508-512: everything but "true",
"false" and an empty or missing attribute is refused. -/
def flagAttr (n : Node) (a : String) : Res Bool :=
  if attrD n a "" ≠ "true" ∧ attrD n a "" ≠ "false" ∧ attrD n a "" ≠ "" then .throws
  else .ok (attrD n a "" != "false")

/-- `setSpectrum`, SourceFactory.cxx:459-515: the spectrum and the flag for the energy
dispersion. -/
def readSpectrum [NatCast K] [Neg K] [Zero K] [One K] [Mul K] [LT K] [DecidableLT K]
    (E : Env K) (n : Node) : Res (Spectrum K × Bool) := do
  let type := attrD n "type" ""
  let ps ← (match E.proto type with | some ps => .ok ps | none => .throws)
  let sp ← special E type (kidsOf n "parameter") ps
  let ps' ← setPars E (kidsOf n "parameter") sp.1
  let file := if type ∈ fileTypes then attrD n "file" "" else ""
  let scaling := if attrD n "scaling_file" "" = "" then none
    else some (attrD n "scaling_file" "")
  let edisp ← flagAttr n "apply_edisp"
  pure (⟨type, ps', file, scaling, sp.2⟩, edisp)

/-! ### Reading a source -/

/-- The loop over the parameters of a position, SourceFactory.cxx:373-381. -/
def readPos [Zero K] (E : Env K) : List Node → K × K → K × K
  | [], d => d
  | n :: ns, (ra, dec) =>
    readPos E ns
      (if attrD n "name" "" = "RA" then attrNum E n "value" 0 else ra,
       if attrD n "name" "" = "DEC" then attrNum E n "value" 0 else dec)

/-- `makePointSource`, SourceFactory.cxx:356-389, with the flags of lines 328-341 and the name.
`checkRoiDist` only prints a warning. -/
def readPoint [NatCast K] [Neg K] [Zero K] [One K] [Mul K] [LT K] [DecidableLT K]
    (E : Env K) (name : String) (spectrum spatial : Node) : Res (Src K) :=
  if attrD spatial "type" "" ≠ "SkyDirFunction" then .throws
  else do
    let pos := readPos E (kidsOf spatial "parameter") (0, 0)
    let sp ← readSpectrum E spectrum
    let psf ← flagAttr spatial "apply_psf"
    let expo ← flagAttr spatial "apply_exposure"
    pure (.point name sp.1 ⟨psf, expo, sp.2⟩ pos.1 pos.2)

/-- The file of a spatial function, SourceFactory.cxx:409-422. -/
def spatialFile (E : Env K) (type : String) (n : Node) : String :=
  if type ∈ mapTypes then E.expand (attrD n "file" "") else ""

/-- Whether the map is to be integrated as it is, SourceFactory.cxx:407-414. -/
def spatialMapInt (type : String) (n : Node) : Bool :=
  (type == "SpatialMap" || type == "MapCubeFunction") && attrD n "map_based_integral" "" == "true"

/-- `makeDiffuseSource`, SourceFactory.cxx:391-432, with the flags of lines 328-341 and the
name. -/
def readDiffuse [NatCast K] [Neg K] [Zero K] [One K] [Mul K] [LT K] [DecidableLT K]
    (E : Env K) (name : String) (spectrum spatial : Node) : Res (Src K) := do
  let type := attrD spatial "type" ""
  let ps ← (match E.proto type with | some ps => .ok ps | none => .throws)
  let ps' ← setPars E (kidsOf spatial "parameter") ps
  let sp ← readSpectrum E spectrum
  let psf ← flagAttr spatial "apply_psf"
  let expo ← flagAttr spatial "apply_exposure"
  pure (.diffuse name sp.1 ⟨psf, expo, sp.2⟩ type ps' (spatialFile E type spatial)
    (spatialMapInt type spatial))

/-- Sources by name (`std::map<std::string, Source *>`). -/
abbrev SrcMap (K : Type) := List (String × Src K)

/-- The loop over sources which are added one after the other to a map that refuses a second
source of the same name: SourceFactory.cxx:96-109, 255-258, and 448-453 with
SourceModel.cxx:197-206. -/
def addAll : List (Src K) → SrcMap K → Res (SrcMap K)
  | [], m => .ok m
  | s :: ss, m =>
    match StdMap.find m s.name with
    | some _ => .throws
    | none => addAll ss (StdMap.put m s.name s)

/-- The composite source of lines 445-456 from the sources inside and its spectrum. -/
def mkComposite [NatCast K] [Neg K] [Zero K] [One K] [Mul K] [LT K] [DecidableLT K]
    (E : Env K) (name : String) (spectrum : Node) (ss : List (Src K)) : Res (Src K) := do
  let m ← addAll ss []
  let sp ← readSpectrum E spectrum
  pure (.composite name sp.1 ⟨true, true, sp.2⟩ (m.map Prod.snd))

/-- What is done with a source element that is no composite source,
SourceFactory.cxx:309-343. -/
def readSimple [NatCast K] [Neg K] [Zero K] [One K] [Mul K] [LT K] [DecidableLT K]
    (E : Env K) (addPoint : Bool) (type name : String) (spectrum : Node)
    (spatials : List Node) : Res (Option (Src K)) :=
  match spatials with
  | [spatial] =>
    if addPoint = true ∧ type = "PointSource" then do
      let s ← readPoint E name spectrum spatial
      pure (some s)
    else if type = "DiffuseSource" then do
      let s ← readDiffuse E name spectrum spatial
      pure (some s)
    else .ok none
  | _ => .throws

mutual
/-- One round of the loop of `makeSources`, SourceFactory.cxx:271-349, with
`makeCompositeSource`, lines 434-457.  Adding the sources inside a composite source to the
prototypes and releasing them again (lines 449, 451) has no effect that is modelled. -/
def readSrc [NatCast K] [Neg K] [Zero K] [One K] [Mul K] [LT K] [DecidableLT K]
    (E : Env K) (addPoint : Bool) : Node → Res (Option (Src K))
  | .mk tag attrs kids =>
    match kidsOf (.mk tag attrs kids) "spectrum" with
    | [spectrum] =>
      if attrD (.mk tag attrs kids) "type" "" = "CompositeSource" then
        match readLibs E addPoint kids with
        | [r] => do
          let ss ← r
          let s ← mkComposite E (attrD (.mk tag attrs kids) "name" "") spectrum ss
          pure (some s)
        | _ => .throws
      else
        readSimple E addPoint (attrD (.mk tag attrs kids) "type" "")
          (attrD (.mk tag attrs kids) "name" "") spectrum
          (kidsOf (.mk tag attrs kids) "spatialModel")
    | _ => .throws
/-- The sources of each `source_library` element among the elements,
SourceFactory.cxx:296-306, 441-443. -/
def readLibs [NatCast K] [Neg K] [Zero K] [One K] [Mul K] [LT K] [DecidableLT K]
    (E : Env K) (addPoint : Bool) : List Node → List (Res (List (Src K)))
  | [] => []
  | .mk tag _ kids :: ns =>
    if tag = "source_library" then readSrcs E addPoint kids :: readLibs E addPoint ns
    else readLibs E addPoint ns
/-- `makeSources`, SourceFactory.cxx:261-350: one source after the other of the elements with
the tag `source`. -/
def readSrcs [NatCast K] [Neg K] [Zero K] [One K] [Mul K] [LT K] [DecidableLT K]
    (E : Env K) (addPoint : Bool) : List Node → Res (List (Src K))
  | [] => .ok []
  | n :: ns =>
    if n.tag = "source" then do
      let s ← readSrc E addPoint n
      let ss ← readSrcs E addPoint ns
      pure (s.toList ++ ss)
    else readSrcs E addPoint ns
end

/-- Outcome of an operation on a model: the state after it is also known when it throws. -/
inductive Out (S : Type) where
  /-- normal return -/
  | ok (s : S)
  /-- an exception; the object is left in the given state -/
  | throws (s : S)
  /-- undefined behaviour -/
  | ub

/-- The loop that moves the sources from the factory to the model, SourceModel.cxx:482-488, in
the order of the names. -/
def moveAll : SrcMap K → SrcMap K → Out (SrcMap K)
  | [], m => .ok m
  | (k, s) :: ss, m =>
    match StdMap.find m k with
    | some _ => .throws m
    | none => moveAll ss (StdMap.put m k s)

/-- `SourceModel::readXml` of a `source_library` element, SourceModel.cxx:456-490, with
`SourceFactory::readXml`, SourceFactory.cxx:231-259. -/
def readXml [NatCast K] [Neg K] [Zero K] [One K] [Mul K] [LT K] [DecidableLT K]
    (E : Env K) (addPoint : Bool) (lib : Node) (m : SrcMap K) : Out (SrcMap K) :=
  match (do let ss ← readSrcs E addPoint lib.kids
            addAll ss [] : Res (SrcMap K)) with
  | .ok f => moveAll f m
  | .throws => .throws m
  | .ub => .ub

/-- The names under which the applications register functions besides those of `optimizers`,
AppHelpers.cxx:221-353. -/
def appTypes : List String :=
  ["SkyDirFunction", "RadialDisk", "SpatialMap", "RadialGaussian", "BandFunction",
   "GaussianError", "LogParabola", "LogGaussian", "LogNormal", "LogNormalLog",
   "MapCubeFunction", "RadialProfile", "PowerLaw2", "BrokenPowerLaw2", "BrokenPowerLaw3",
   "MultipleBrokenPowerLaw", "PiecewisePowerLaw", "SmoothBrokenPowerLaw",
   "SmoothDoubleBrokenPowerLaw", "FileFunction", "ExpCutoff", "ExpCutoffSEDPeak",
   "BPLExpCutoff", "PLSuperExpCutoff", "PLSuperExpCutoff2", "PLSuperExpCutoff3",
   "PLSuperExpCutoff4", "DMFitFunction", "EblAtten::PowerLaw2", "EblAtten::BrokenPowerLaw2",
   "EblAtten::LogParabola", "EblAtten::BandFunction", "EblAtten::SmoothBrokenPowerLaw",
   "EblAtten::FileFunction", "EblAtten::ExpCutoff", "EblAtten::BPLExpCutoff",
   "EblAtten::PLSuperExpCutoff", "EblAtten::PLSuperExpCutoff2", "EblAtten::PLSuperExpCutoff3",
   "EblAtten::PLSuperExpCutoff4", "EblAtten::BrokenPowerLaw3", "EblAtten::ExpCutoffSEDPeak",
   "EnergyBand::PowerLaw2", "EnergyBand::BrokenPowerLaw2", "EnergyBand::LogParabola",
   "EnergyBand::BandFunction", "EnergyBand::SmoothBrokenPowerLaw", "EnergyBand::FileFunction",
   "EnergyBand::ExpCutoff", "EnergyBand::BPLExpCutoff", "EnergyBand::PLSuperExpCutoff",
   "EnergyBand::PLSuperExpCutoff2", "EnergyBand::PLSuperExpCutoff3",
   "EnergyBand::PLSuperExpCutoff4", "EnergyBand::BrokenPowerLaw3",
   "EnergyBand::ExpCutoffSEDPeak", "ScaleFactor::FileFunction", "ScaleFactor::PowerLaw2",
   "ScaleFactor::PLSuperExpCutoff", "ScaleFactor::PLSuperExpCutoff2",
   "ScaleFactor::PLSuperExpCutoff3", "ScaleFactor::PLSuperExpCutoff4",
   "ScaleFactor::BrokenPowerLaw2", "ScaleFactor::BrokenPowerLaw3", "ScaleFactor::LogParabola",
   "ScaleFactor::BandFunction", "ScaleFactor::SmoothBrokenPowerLaw", "ScaleFactor::ExpCutoff",
   "ScaleFactor::ExpCutoffSEDPeak", "ScaleFactor::BPLExpCutoff", "ScaleFactor::Gaussian"]

end Verif.Xml
