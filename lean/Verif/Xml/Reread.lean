import Verif.Xml.Model
/-
Model of reading a file again into a model that has the sources already: `reReadXml` of
src/SourceModel.cxx.
-/
namespace Verif.Xml

variable {K : Type}

/-- A source model: the sources by name and the list `m_parameter` which `syncParams` makes of
them. -/
structure Mdl (K : Type) where
  srcs : SrcMap K
  params : List (Par K)

/-- `syncParams`, SourceModel.cxx:402-412: the parameters of the
spectra, source by source. -/
def syncList (m : SrcMap K) : List (Par K) := m.flatMap (fun x => x.2.spec.pars)

/-- `parseParameterNode`, SourceModel.cxx:135-162, with the defaults of the constructor of
`optimizers::Parameter`: scale 1, free, no error. -/
def parsePar [Zero K] [One K] (E : Env K) (n : Node) : Option (Par K) :=
  match attr? n "name", (attr? n "value").bind E.stod with
  | some name, some v =>
    some
      { name := name
        value := v
        scale := ((attr? n "scale").bind E.stod).getD 1
        lo := match (attr? n "min").bind E.stod, (attr? n "max").bind E.stod with
          | some lo, some _ => lo
          | _, _ => E.bounds.1
        hi := match (attr? n "min").bind E.stod, (attr? n "max").bind E.stod with
          | some _, some hi => hi
          | _, _ => E.bounds.2
        free := match attr? n "free" with
          | some f => f == "1" || f == "true"
          | none => true
        err := 0 }
  | _, _ => none

/-- The parameters of an element, without those that cannot be parsed, SourceModel.cxx:540-549
and 589-598. -/
def parsePars [Zero K] [One K] (E : Env K) (n : Node) : List (Par K) :=
  (kidsOf n "parameter").filterMap (parsePar E)

/-- `if (!list.empty()) function.setParams(list)`, SourceModel.cxx:551-553 and 600-602. -/
def setAll (new old : List (Par K)) : Res (List (Par K)) :=
  if new = [] then .ok old
  else if new.length = old.length then .ok new
  else .throws

/-- A source with other parameters of the spectrum; what the function keeps besides its
parameters is not touched. -/
def withPars (s : Src K) (ps : List (Par K)) : Src K :=
  match s with
  | .point n sp f ra dec => .point n { sp with pars := ps } f ra dec
  | .diffuse n sp f t q fi mi => .diffuse n { sp with pars := ps } f t q fi mi
  | .composite n sp f ms => .composite n { sp with pars := ps } f ms

/-- The loop over the parameters of a position, SourceModel.cxx:565-576. -/
def rereadPos (E : Env K) : List Node → K × K → K × K
  | [], d => d
  | n :: ns, d =>
    rereadPos E ns
      (match attr? n "name", (attr? n "value").bind E.stod with
        | some "RA", some v => (v, d.2)
        | some "DEC", some v => (d.1, v)
        | _, _ => d)

/-- The spectrum, SourceModel.cxx:537-554. -/
def rereadSpec [Zero K] [One K] (E : Env K) (n : Node) (s : Src K) : Res (Src K) :=
  match kidsOf n "spectrum" with
  | [] => .ok s
  | sp :: _ => do
    let ps ← setAll (parsePars E sp) s.spec.pars
    pure (withPars s ps)

/-- The position, SourceModel.cxx:557-585: moved only if the new position is more than `tol`
away from the old one. -/
def rereadPoint [Zero K] [LT K] [DecidableLT K] (E : Env K) (sep : K × K → K × K → K) (tol : K)
    (n : Node) (s : Src K) : Src K :=
  match kidsOf n "spatialModel" with
  | [] => s
  | st :: _ =>
    match s with
    | .point name spec f ra dec =>
      if tol < sep (rereadPos E (kidsOf st "parameter") (0, 0)) (ra, dec) then
        .point name spec f (rereadPos E (kidsOf st "parameter") (0, 0)).1
          (rereadPos E (kidsOf st "parameter") (0, 0)).2
      else s
    | _ => s

/-- The spatial part of a diffuse source, SourceModel.cxx:586-603.  For a source without a
spatial function `operator[]` of the map gives a null pointer, which is dereferenced. -/
def rereadDiffuse [Zero K] [One K] (E : Env K) (n : Node) (s : Src K) : Res (Src K) :=
  match kidsOf n "spatialModel" with
  | [] => .ok s
  | st :: _ =>
    if (parsePars E st).isEmpty then .ok s
    else
      match s with
      | .diffuse name spec f t ps fi mi => do
        let ps' ← setAll (parsePars E st) ps
        pure (.diffuse name spec f t ps' fi mi)
      | _ => .ub

/-- What follows the spectrum, by the type in the file, SourceModel.cxx:556-609. -/
def rereadType [Zero K] [One K] [LT K] [DecidableLT K] (E : Env K) (sep : K × K → K × K → K)
    (tol : K) (n : Node) (type : String) (s : Src K) : Out (Src K) :=
  if type = "PointSource" then .ok (rereadPoint E sep tol n s)
  else if type = "DiffuseSource" then
    match rereadDiffuse E n s with
    | .ok s' => .ok s'
    | .throws => .throws s
    | .ub => .ub
  else .throws s

/-- One source, SourceModel.cxx:537-609. -/
def rereadSrc [Zero K] [One K] [LT K] [DecidableLT K] (E : Env K) (sep : K × K → K × K → K)
    (tol : K) (n : Node) (type : String) (s : Src K) : Out (Src K) :=
  match rereadSpec E n s with
  | .ok s' => rereadType E sep tol n type s'
  | .throws => .throws s
  | .ub => .ub

/-- The loop over the source elements, SourceModel.cxx:517-610. -/
def rereadAll [Zero K] [One K] [LT K] [DecidableLT K] (E : Env K) (sep : K × K → K × K → K)
    (tol : K) : List Node → SrcMap K → Out (SrcMap K)
  | [], m => .ok m
  | n :: ns, m =>
    match attr? n "name", attr? n "type" with
    | some name, some type =>
      match StdMap.find m name with
      | none => rereadAll E sep tol ns m
      | some s =>
        match rereadSrc E sep tol n type s with
        | .ok s' => rereadAll E sep tol ns (StdMap.put m name s')
        | .throws s' => .throws (StdMap.put m name s')
        | .ub => .ub
    | _, _ => rereadAll E sep tol ns m

/-- `SourceModel::reReadXml` of a `source_library` element, SourceModel.cxx:512-612: the
parameter list is only made anew if nothing was thrown. -/
def reReadXml [Zero K] [One K] [LT K] [DecidableLT K] (E : Env K) (sep : K × K → K × K → K)
    (tol : K) (lib : Node) (m : Mdl K) : Out (Mdl K) :=
  match rereadAll E sep tol (kidsOf lib "source") m.srcs with
  | .ok s => .ok ⟨s, syncList s⟩
  | .throws s => .throws ⟨s, m.params⟩
  | .ub => .ub

end Verif.Xml
