import Verif.Basic
import Verif.SrcModel.Model
import Mathlib.Analysis.SpecialFunctions.Log.Basic

/-!
# The likelihood of one source: the program

`OneSourceFunc`, src/OneSourceFunc.cxx, what is maximised for one source in the EM fit.  `double`
is `ℝ`; a value that is not a number is `none`.  A source is its functions (in order of name), each
with its parameters; parameters and functions are as in C16 (`SrcModel`), with what is assumed of
the package `optimizers`.
-/

namespace Verif.OneSrc

open SrcModel (Out Par funSetValues funSetParam count)

/-- `log(q)`: not a number for a negative `q`.  (It is only called with `q` away from zero.) -/
noncomputable def vlog (q : ℝ) : Option ℝ := open Classical in if 0 < q then some (Real.log q) else none

/-- The loop of `value`, OneSourceFunc.cxx:46-56: weights and flux densities of the events. -/
noncomputable def valueLoop (epsw epsf : ℝ) : List (ℝ × ℝ) → ℝ → Option ℝ
  | [], val => some val
  | (w, q) :: es, val =>
    open Classical in
    if epsw < w then
      if epsf < |q| then
        match vlog q with
        | some l => valueLoop epsw epsf es (val + w * l)
        | none => none
      else valueLoop epsw epsf es val
    else valueLoop epsw epsf es val

/-- `value`, OneSourceFunc.cxx:41-63. -/
noncomputable def value (epsw epsf : ℝ) (events : List (ℝ × ℝ)) (npred : ℝ) : Option ℝ :=
  (valueLoop epsw epsf events 0).map (fun val => val - npred)

/-- The loop of `derivByParamImp`, OneSourceFunc.cxx:70-80: weights, flux densities and their
derivatives. -/
noncomputable def derivLoop (epsw epsf : ℝ) : List (ℝ × ℝ × ℝ) → ℝ → ℝ
  | [], d => d
  | (w, q, v) :: es, d =>
    open Classical in
    if epsw < w then
      if epsf < |q| then derivLoop epsw epsf es (d + w * v / q) else derivLoop epsw epsf es d
    else derivLoop epsw epsf es d

/-- `derivByParamImp`, OneSourceFunc.cxx:65-84. -/
noncomputable def deriv (epsw epsf : ℝ) (events : List (ℝ × ℝ × ℝ)) (npredDeriv : ℝ) : ℝ :=
  derivLoop epsw epsf events 0 - npredDeriv

variable {κ K : Type}

/-- The functions of the source and the list of parameters of the object. -/
structure Obj (κ K : Type) where
  funs : List (List (Par κ K))
  param : List (Par κ K)

/-- `syncParams`, OneSourceFunc.cxx:86-97. -/
def sync (o : Obj κ K) : Obj κ K := { o with param := o.funs.foldl (fun l ps => l ++ ps) [] }

/-- The constructor, OneSourceFunc.cxx:19-31. -/
def new (funs : List (List (Par κ K))) : Obj κ K := sync ⟨funs, []⟩

section
variable [LinearOrder κ] [Field K] [LinearOrder K] [IsStrictOrderedRing K]

/-- The loop over the functions, OneSourceFunc.cxx:104-106, 116-118. -/
def setLoop (onlyFree : Bool) : List (List (Par κ K)) → List K →
    Out (List (List (Par κ K))) (List K)
  | [], vs => .ok [] vs
  | ps :: fs, vs =>
    match funSetValues onlyFree ps vs with
    | .throws ps' => .throws (ps' :: fs)
    | .ub => .ub
    | .ok ps' r =>
      match setLoop onlyFree fs r with
      | .ok fs' r' => .ok (ps' :: fs') r'
      | .throws fs' => .throws (ps' :: fs')
      | .ub => .ub

/-- `setFreeParamValues_` and `setParamValues_`, OneSourceFunc.cxx:99-121. -/
def setValues_ (onlyFree : Bool) (o : Obj κ K) (vs : List K) : Out (Obj κ K) (List K) :=
  match setLoop onlyFree o.funs vs with
  | .ok fs r => .ok (sync ⟨fs, o.param⟩) r
  | .throws fs => .throws ⟨fs, (sync o).param⟩
  | .ub => .ub

/-- `setFreeParamValues` and `setParamValues` as inherited: the number of values is compared with
the list of parameters as it is. -/
def setValues (onlyFree : Bool) (o : Obj κ K) (vs : List K) : Out (Obj κ K) Unit :=
  if vs.length ≠ count onlyFree o.param then .throws o
  else match setValues_ onlyFree o vs with
    | .ok o' _ => .ok o' ()
    | .throws o' => .throws o'
    | .ub => .ub

/-- `getParamValues` and `getFreeParamValues` as inherited. -/
def getValues (onlyFree : Bool) (o : Obj κ K) : List K :=
  ((if onlyFree then o.param.filter (·.free) else o.param)).map (·.value)

/-- The inner loop of `setParams`, OneSourceFunc.cxx:134-135: `n` parameters of a function are
set; the rest of `params` is returned. -/
def setOne : ℕ → List (Par κ K) → List (Par κ K) → Out (List (Par κ K)) (List (Par κ K))
  | 0, ps, qs => .ok ps qs
  | _ + 1, _, [] => .ub
  | n + 1, ps, q :: qs =>
    match funSetParam q ps with
    | none => .throws ps
    | some ps' => setOne n ps' qs

/-- The loop over the functions, OneSourceFunc.cxx:132-136. -/
def setAll : List (List (Par κ K)) → List (Par κ K) → Out (List (List (Par κ K))) Unit
  | [], _ => .ok [] ()
  | ps :: fs, qs =>
    match setOne ps.length ps qs with
    | .throws ps' => .throws (ps' :: fs)
    | .ub => .ub
    | .ok ps' r =>
      match setAll fs r with
      | .ok fs' _ => .ok (ps' :: fs') ()
      | .throws fs' => .throws (ps' :: fs')
      | .ub => .ub

/-- `setParams`, OneSourceFunc.cxx:123-138. -/
def setParams (o : Obj κ K) (qs : List (Par κ K)) : Out (Obj κ K) Unit :=
  if qs.length ≠ o.param.length then .throws o
  else match setAll o.funs qs with
    | .ok fs _ => .ok (sync ⟨fs, o.param⟩) ()
    | .throws fs => .throws ⟨fs, o.param⟩
    | .ub => .ub

end

end Verif.OneSrc
